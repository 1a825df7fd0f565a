import Verif.Model.Slice
import Verif.Model.De
/-!
# Specification: collecting data until a value is complete

The code of a caller that gets its data in pieces, from a non-blocking socket for
instance, and cannot let the deserializer read them (property C100): it appends what
arrives to a buffer, decodes from the start of the buffer, removes what was used after a
success, and waits for more after `Err(Read)`. Other errors end the connection.
-/
namespace Dlhn

variable {α : Type}

/-- Where a decoder leaves the slice `bs`, whatever its outcome `o`, `left` being the
slice afterwards. One of:

* it stopped after `used`, the first bytes of the slice. Whatever follows them, and with
  every version of std, it has the same outcome and leaves what follows; on a shorter part
  of them it fails with the error for missing data.
* the data did not suffice: it failed with that error, as it does on every shorter part of
  the data. Newer versions of std leave nothing, older ones some of the last bytes. -/
def SliceStops {ε : Type} (t : Target) (std : OnShort) (missing : ε) (p : Prog ε α)
    (bs : List UInt8) (o : Outcome ε α) (left : List UInt8) : Prop :=
  (∃ used, bs = used ++ left ∧ (∀ std' more, p.runSlice t std' (used ++ more) = (o, more)) ∧
    ∀ std' pre, pre <+: used → pre ≠ used → (p.runSlice t std' pre).1 = .err missing) ∨
  (o = .err missing ∧ left <:+ bs ∧ (std = .toEnd → left = []) ∧
    ∀ std' pre, pre <+: bs → (p.runSlice t std' pre).1 = .err missing)

/-- `loop { let mut r = &buf[..]; match T::deserialize(&mut Deserializer::new(&mut r)) {
Ok(v) => { emit(v); buf.drain(..buf.len() - r.len()) } Err(Error::Read) => break, .. } }`:
the values it emits, and the buffer it is left with. -/
inductive Drains (read : List UInt8 → Outcome DeErr α × List UInt8) :
    List UInt8 → List α → List UInt8 → Prop where
  | wait {buf left : List UInt8} (h : read buf = (.err .read, left)) : Drains read buf [] buf
  | value {buf left buf' : List UInt8} {v : α} {vs : List α} (h : read buf = (.ok v, left))
      (more : Drains read left vs buf') : Drains read buf (v :: vs) buf'

/-- The caller gets the given pieces, starting with a buffer: all values it emits, and the
buffer in the end. -/
inductive Receives (read : List UInt8 → Outcome DeErr α × List UInt8) :
    List UInt8 → List (List UInt8) → List α → List UInt8 → Prop where
  | stop {buf : List UInt8} : Receives read buf [] [] buf
  | piece {buf c buf' buf'' : List UInt8} {cs : List (List UInt8)} {vs ws : List α}
      (h : Drains read (buf ++ c) vs buf') (more : Receives read buf' cs ws buf'') :
      Receives read buf (c :: cs) (vs ++ ws) buf''

/-- Of the values `sent`, encoded by `enc`, those of which all bytes are among `data` are
`vs`, and `left` are the other bytes. -/
def CompleteIn (enc : α → List UInt8) (sent : List α) (data : List UInt8) (vs : List α)
    (left : List UInt8) : Prop :=
  vs <+: sent ∧ data = (vs.map enc).flatten ++ left ∧
    ∀ v, vs ++ [v] <+: sent → left <+: enc v ∧ left ≠ enc v

end Dlhn
