import Verif.Model.AnyReader
/-!
# Readers built from readers with the adapters of `std::io`

`Read::take`, `Read::chain` and `BufReader`, in any combination. (`Read::by_ref`
and `Box<dyn Read>` pass every call on.) The adapters are modelled by their `read`;
where std has a `read_exact` of its own (`BufReader`) or a `read_to_end` of its own
(`Chain`, `BufReader`), the same bytes come out of it.
-/
namespace Dlhn

/-- A reader built with adapters from readers with any behaviour. -/
inductive Rdr where
  /-- A reader that does what the script says. -/
  | base (s : Script)
  /-- `r.take(limit)`. -/
  | take (limit : Nat) (r : Rdr)
  /-- `a.chain(b)`; `doneFirst` is the flag of std's `Chain`. -/
  | chain (doneFirst : Bool) (a b : Rdr)
  /-- `BufReader::with_capacity(cap, r)`, having read `ahead`. -/
  | buffered (cap : Nat) (ahead : List UInt8) (r : Rdr)

/-- `read(&mut buf[..m])`.

* std's `Take::read`: `Ok(0)` when the limit is 0; otherwise the reader is asked for
  no more than the limit, which is reduced by what it returns.
* std's `Chain::read`: the first reader until it returns `Ok(0)` for a buffer that is not
  empty, then the second.
* std's `BufReader::read`, as in Model/Buffered.lean. -/
def Rdr.read (m : Nat) : Rdr → ReadRes × Rdr
  | .base s =>
    let (r, s') := Script.read m s
    (r, .base s')
  | .take limit r =>
    if limit = 0 then (.ok [], .take limit r)
    else match Rdr.read (min m limit) r with
      | (.ok bs, r') => (.ok bs, .take (limit - bs.length) r')
      | (x, r') => (x, .take limit r')
  | .chain false a b =>
    match Rdr.read m a with
    | (.ok bs, a') =>
      if bs = [] ∧ m ≠ 0 then
        let (x, b') := Rdr.read m b
        (x, .chain true a' b')
      else (.ok bs, .chain false a' b)
    | (x, a') => (x, .chain false a' b)
  | .chain true a b =>
    let (x, b') := Rdr.read m b
    (x, .chain true a b')
  | .buffered cap ahead r =>
    if ahead = [] then
      if cap ≤ m then
        let (x, r') := Rdr.read m r
        (x, .buffered cap [] r')
      else match Rdr.read cap r with
        | (.ok bs, r') => (.ok (bs.take m), .buffered cap (bs.drop m) r')
        | (x, r') => (x, .buffered cap [] r')
    else (.ok (ahead.take m), .buffered cap (ahead.drop m) r)

/-- Such a reader as one of Model/AnyReader.lean. -/
def Rdr.step : RStep Rdr := fun r m x r' => Rdr.read m r = (x, r')

end Dlhn
