import Verif.Spec.AnyReader
import Verif.Spec.AnyWriter
import Verif.Spec.Collect
/-!
# Specification: reading a stream to its end

The code of a caller that reads all values of a file or of a connection, as in the README:
it deserializes from one reader until that fails.
-/
namespace Dlhn

variable {σ α : Type}

/-- `let mut d = Deserializer::new(&mut reader); loop { match T::deserialize(&mut d) {
Ok(v) => values.push(v), Err(e) => return (values, e) } }` on any reader (Model/AnyReader.lean):
the answers of all `read` calls, the values, the error, and the reader in the end. There is
no run if the loop does not end. -/
inductive ReadsOut (step : RStep σ) (t : Target) (p : Prog DeErr α) :
    σ → List ReadRes → List α → DeErr → σ → Prop where
  | stop {s s' : σ} {cs : List ReadRes} {e : DeErr} (h : Runs step t p s cs (.err e) s') :
      ReadsOut step t p s cs [] e s'
  | next {s s' s'' : σ} {cs ds : List ReadRes} {v : α} {vs : List α} {e : DeErr}
      (h : Runs step t p s cs (.ok v) s') (more : ReadsOut step t p s' ds vs e s'') :
      ReadsOut step t p s (cs ++ ds) (v :: vs) e s''

/-- In every state `s` the reader has at most `room s` bytes still to deliver. -/
structure RStep.Holds (step : RStep σ) (room : σ → Nat) : Prop where
  bytes : ∀ s m bs s', step s m (.ok bs) s' → bs.length + room s' ≤ room s
  interrupted : ∀ s m s', step s m .interrupted s' → room s' ≤ room s
  fail : ∀ s m e s', step s m (.fail e) s' → room s' ≤ room s

/-- One life of a process that keeps a log in a file: the contents it finds, the values `new` it
wants to append, the bytes `written` that reach the file before it ends or dies, and the contents
it leaves. `read` is decoding one value from a slice. -/
inductive Life {β : Type} (read : List UInt8 → Outcome DeErr α × List UInt8) (enc : β → List UInt8) :
    List UInt8 → (new : List β) → (written : List UInt8) → List UInt8 → Prop where
  /-- It dies before it has changed the file. -/
  | idle {file : List UInt8} {new : List β} : Life read enc file new [] file
  /-- It decodes what is in the file, cuts off what is left (`set_len`), and appends. -/
  | append {file left written : List UInt8} {new : List β} {vs : List α}
      (hd : Drains read file vs left) (hw : written <+: (new.map enc).flatten) :
      Life read enc file new written (file.take (file.length - left.length) ++ written)

/-- One life after the other. -/
inductive Lives {β : Type} (read : List UInt8 → Outcome DeErr α × List UInt8) (enc : β → List UInt8) :
    List UInt8 → List (List β × List UInt8) → List UInt8 → Prop where
  | none {file : List UInt8} : Lives read enc file [] file
  | one {f f' f'' written : List UInt8} {new : List β} {more : List (List β × List UInt8)}
      (first : Lives read enc f more f') (last : Life read enc f' new written f'') :
      Lives read enc f (more ++ [(new, written)]) f''

/-- A file: it fills every buffer as far as there are data, and then returns `Ok(0)`. -/
def fileStep : RStep (List UInt8) := fun s m r s' => r = .ok (s.take m) ∧ s' = s.drop m

end Dlhn
