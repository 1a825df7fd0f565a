import Verif.Spec.Log
import Verif.Model.Derive
import Verif.Model.Body
import Verif.Model.Header
/-!
# Specification: a log that describes itself

A file or connection that begins with the header of a type and goes on with values of it
(README.md, lines 64-90). The reader knows no types: it reads the header, and then bodies that
this header describes.
-/
namespace Dlhn

variable {σ : Type}

/-- `let header = reader.deserialize_header()?; let mut d = Deserializer::new(&mut reader);
loop { match Body::deserialize(&header, &mut d) { Ok(b) => bodies.push(b), Err(e) => return
Ok((header, bodies, e)) } }` on any reader. -/
inductive ReadsSelf (step : RStep σ) (t : Target) (mode : BuildMode) (size hsize d : Nat) :
    σ → List ReadRes → Except IoErr (Header × List Body × DeErr) → σ → Prop where
  | noHeader {s s' : σ} {cs : List ReadRes} {e : IoErr}
      (h : Runs step t (Header.deserialize hsize d) s cs (.err e) s') :
      ReadsSelf step t mode size hsize d s cs (.error e) s'
  | header {s s' s'' : σ} {cs ds : List ReadRes} {hd : Header} {bs : List Body} {e : DeErr}
      (h : Runs step t (Header.deserialize hsize d) s cs (.ok hd) s')
      (more : ReadsOut step t (Body.de t mode size hd) s' ds bs e s'') :
      ReadsSelf step t mode size hsize d s (cs ++ ds) (.ok (hd, bs, e)) s''

/-- `T::serialize_header(&mut w)?; let mut ser = Serializer::new(&mut w);
for v in vs { v.serialize(&mut ser)?; }` on any writer: the calls of `write`. `p` writes the header, `q` the values. -/
inductive WritesSelf {ω : Type} (step : WStep ω) (p : WProg IoErr) (q : WProg SerErr) :
    ω → List WCall → ω → Prop where
  | noHeader {a a' : ω} {ws : List WCall} {e : IoErr} (h : WRuns step p a ws (.err e) a') :
      WritesSelf step p q a ws a'
  | header {a a' a'' : ω} {ws xs : List WCall} {o : Outcome SerErr Unit}
      (h : WRuns step p a ws (.ok ()) a') (more : WRuns step q a' xs o a'') :
      WritesSelf step p q a (ws ++ xs) a''

/-- Serialize values of one type with one serializer, until one fails. -/
def serEach (mode : BuildMode) (T : RTy) : List (Derive.Carrier T) → WProg SerErr
  | [] => .skip
  | v :: vs => (Derive.ser mode T v).andThen (serEach mode T vs)

/-- One life of a process that keeps such a log. `head` are the bytes of its header, `written`
are the bytes of values that reach the file. `readHeader` and `read h` decode a header and a
value from a slice. -/
inductive SelfLife {α β : Type} (readHeader : List UInt8 → Outcome IoErr Header × List UInt8)
    (read : Header → List UInt8 → Outcome DeErr α × List UInt8) (head : List UInt8)
    (enc : β → List UInt8) :
    List UInt8 → (new : List β) → (written : List UInt8) → List UInt8 → Prop where
  /-- It dies before it has changed the file. -/
  | idle {file : List UInt8} {new : List β} : SelfLife readHeader read head enc file new [] file
  /-- The file has no readable header. The process empties it and dies before the header is
  written. -/
  | torn {file file' : List UInt8} {new : List β} {e : IoErr} (hh : (readHeader file).1 = .err e)
      (hw : file' <+: head) (hne : file' ≠ head) :
      SelfLife readHeader read head enc file new [] file'
  /-- The file has no readable header. The process empties it, and writes the header and values. -/
  | fresh {file written : List UInt8} {new : List β} {e : IoErr} (hh : (readHeader file).1 = .err e)
      (hw : written <+: (new.map enc).flatten) :
      SelfLife readHeader read head enc file new written (head ++ written)
  /-- It reads the header and the values in the file, cuts off what is left, and appends. -/
  | append {file rest left written : List UInt8} {new : List β} {h : Header} {vs : List α}
      (hh : readHeader file = (.ok h, rest)) (hd : Drains (read h) rest vs left)
      (hw : written <+: (new.map enc).flatten) :
      SelfLife readHeader read head enc file new written
        (file.take (file.length - left.length) ++ written)

/-- One life after the other. -/
inductive SelfLives {α β : Type} (readHeader : List UInt8 → Outcome IoErr Header × List UInt8)
    (read : Header → List UInt8 → Outcome DeErr α × List UInt8) (head : List UInt8)
    (enc : β → List UInt8) : List UInt8 → List (List β × List UInt8) → List UInt8 → Prop where
  | none {file : List UInt8} : SelfLives readHeader read head enc file [] file
  | one {f f' f'' written : List UInt8} {new : List β} {more : List (List β × List UInt8)}
      (first : SelfLives readHeader read head enc f more f')
      (last : SelfLife readHeader read head enc f' new written f'') :
      SelfLives readHeader read head enc f (more ++ [(new, written)]) f''

end Dlhn
