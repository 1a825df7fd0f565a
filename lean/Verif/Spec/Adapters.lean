import Verif.Model.Adapters
/-!
# Specification: what readers built with adapters deliver
-/
namespace Dlhn

/-- How the data of a reader end. -/
def Rdr.delivers : Rdr → List UInt8 × Ending
  | .base s => (s.bytes, s.ending)
  | .take limit r =>
    (r.delivers.1.take limit, if limit ≤ r.delivers.1.length then .eof else r.delivers.2)
  | .chain false a b =>
    match a.delivers with
    | (bs, .eof) => (bs ++ b.delivers.1, b.delivers.2)
    | (bs, .fail e) => (bs, .fail e)
  | .chain true _ b => b.delivers
  | .buffered _ ahead r => (ahead ++ r.delivers.1, r.delivers.2)

/-- The bytes a reader delivers before its first end of file or failure: `take(n)`
delivers the first `n` bytes, `a.chain(b)` those of `a` and then, unless `a` fails,
those of `b`, a `BufReader` those it has read ahead and then those of its reader. -/
def Rdr.bytes (r : Rdr) : List UInt8 := r.delivers.1

/-- How those bytes end. -/
def Rdr.ending (r : Rdr) : Ending := r.delivers.2

end Dlhn
