import Verif.Model.Reader
/-!
# Byte slices as readers

`&[u8]` and `std::io::Cursor` (the readers of README.md and of dlhn/tests) have their own
`read_exact`. It copies the bytes if there are enough of them; if not it fails before
copying any, and leaves the slice as it was or, in newer versions of std, empty.
`Take::read_to_string` (dlhn/src/de.rs:226-229) uses `read`, which is not special.
-/
namespace Dlhn

/-- The versions of std: where a failed `read_exact` leaves the slice. -/
inductive OnShort where
  /-- As it was. -/
  | stay
  /-- At its end. -/
  | toEnd
  deriving DecidableEq

/-- What a failed `read_exact` leaves of the slice `bs`. -/
def OnShort.left : OnShort → List UInt8 → List UInt8
  | .stay, bs => bs
  | .toEnd, _ => []

/-- Run a decoder on a slice: the result, and the slice afterwards. -/
def Prog.runSlice {ε α : Type} (t : Target) (std : OnShort) :
    Prog ε α → List UInt8 → Outcome ε α × List UInt8
  | .done o, bs => (o, bs)
  | .readExact n onErr k, bs =>
    if h : n ≤ bs.length then runSlice t std (k (takeVec bs h)) (bs.drop n)
    else (.err (onErr .unexpectedEof), std.left bs)
  | .takeToEnd n _ k, bs => runSlice t std (k (bs.take n)) (bs.drop n)
  | .alloc n k, bs =>
    match t.allocate n with
    | some p => (.panic p, bs)
    | none => runSlice t std k bs

end Dlhn
