import Verif.Model.AnyReader
import Verif.Model.Adapters
import Verif.Model.De
import Verif.Model.Header
import Verif.Model.Body
import Verif.Spec.Adapters
import Verif.Spec.Frames
/-!
# Specification: frames read through `take`

A receiver that does not load a buffer before it decodes from it. For every buffer it decodes
the length as a `u64`, runs a decoder on `reader.take(length)`, and reads what the decoder left
of the buffer away. If the decoder panics, the panic is caught.
-/
namespace Dlhn.Spec

/-- `ReadsFrames t p q os q'`: a receiver reads as many frames from `q` as `os` is long and runs
`p` on each; `os` are the outcomes, `q'` is the reader afterwards. -/
inductive ReadsFrames {α : Type} (t : Target) (p : Prog DeErr α) :
    Rdr → List (Outcome DeErr α) → Rdr → Prop
  | stop (q : Rdr) : ReadsFrames t p q [] q
  | frame {q q₁ r q₂ q₃ : Rdr} {cs cs' ds : List ReadRes} {n : UInt64} {left : Nat}
      {o : Outcome DeErr α} {x : Except IoErr (List UInt8)} {os : List (Outcome DeErr α)}
      (hlen : Runs Rdr.step t (De.de t .u64) q cs (.ok (.u64 n)) q₁)
      (hdec : Runs Rdr.step t p (.take n.toNat q₁) cs' o r)
      (hskip : ReadsToEnd Rdr.step (n.toNat + 1) [] r ds x (.take left q₂))
      (hmore : ReadsFrames t p q₂ os q₃) : ReadsFrames t p q (o :: os) q₃

/-- A decoder for messages: `let header = reader.deserialize_header().map_err(|_| Error::Read)?;
let body = Body::deserialize(&header, &mut deserializer)?; Ok((header, body))`. -/
def message (t : Target) (mode : BuildMode) (size hsize d : Nat) : Prog DeErr (Header × Body) :=
  Prog.bind ((Header.deserialize hsize d).mapErr De.orRead) fun h =>
    Prog.bind (Body.de t mode size h) fun b => .done (.ok (h, b))

end Dlhn.Spec
