import Verif.Spec.GrammarAny
import Verif.Spec.DeriveGrammar
/-!
# Specification: which bytes are read as which body and as which value of a Rust type, on a
target with addresses of some bits

As Spec/BodyGrammar.lean and Spec/DeriveGrammar.lean, with lengths as in Spec/GrammarAny.lean.
-/
namespace Dlhn.Spec

open Derive (Carrier TupleCarrier FieldCarrier FieldsCarrier VariantsCarrier Env)

/-- As many bytes, one after the other, as their count modulo the size of an address. -/
def CountedIn (bits : Nat) (body bs : List UInt8) : Prop :=
  ∃ l, CountIn bits body.length l ∧ bs = l ++ body

/-- An entry of a map: its key and what `R` says. -/
def EntryIn {α : Type} (bits : Nat) (R : α → List UInt8 → List UInt8 → Prop) (e : String × α)
    (bs rest : List UInt8) : Prop :=
  ∃ y z, bs = y ++ z ∧ TextIn bits (utf8 e.1) y (z ++ rest) ∧ R e.2 z rest

/-- Digits and, unless there are none, the scale. -/
def DecimalIn (bits : Nat) (v : BigDecimal) (bs : List UInt8) : Prop :=
  (v.signedBytes = [] ∧ v.scale = 0 ∧ CountedIn bits [] bs) ∨
    (v.signedBytes ≠ [] ∧ ∃ l u, bs = l ++ u ∧ CountedIn bits v.signedBytes l ∧
      Number 64 (zigzag v.scale.toInt) u)

mutual
/-- `BodyDenotesIn bits mode room h b bs rest`: followed by `rest` and then the end of the input,
`bs` stands for the body `b` under the header `h`. -/
def BodyDenotesIn (bits : Nat) (mode : BuildMode) (room : Nat → Prop) :
    Header → Body → List UInt8 → List UInt8 → Prop
  | .optional h, b, bs, rest => (b = .none ∧ bs = [0]) ∨
      ∃ c u, b = .some c ∧ bs = 1 :: u ∧ BodyDenotesIn bits mode room h c u rest
  | .bigUInt, b, bs, _ => ∃ v : BigUint, b = .bigUInt v ∧ CountedIn bits v.bytes bs
  | .bigInt, b, bs, _ => ∃ v : BigInt, b = .bigInt v ∧ CountedIn bits v.bytes bs
  | .bigDecimal, b, bs, _ => ∃ v : BigDecimal, b = .bigDecimal v ∧ DecimalIn bits v bs
  | .string, b, bs, rest => ∃ s, b = .string s ∧ TextIn bits (utf8 s) bs rest
  | .binary, b, bs, _ => ∃ body, b = .binary body ∧ BytesIn bits body bs
  -- only the memory asked for is cut down
  | .array h, b, bs, rest => ∃ cs l u, b = .array cs ∧ bs = l ++ u ∧ Number 64 cs.length l ∧
      JoinedIn (BodyDenotesIn bits mode room h) cs u rest ∧ room (cs.length % 2 ^ bits)
  | .tuple hs, b, bs, rest => ∃ cs, b = .tuple cs ∧ BodiesDenoteIn bits mode room hs cs bs rest ∧
      room hs.length
  | .map h, b, bs, rest => ∃ es m l u, b = .map m ∧ Collected es m ∧ bs = l ++ u ∧
      Number 64 es.length l ∧ JoinedIn (EntryIn bits (BodyDenotesIn bits mode room h)) es u rest
  | .enum hs, b, bs, rest => ∃ (i : UInt32) (c : Body) (l u : List UInt8), b = .enum i c ∧
      bs = l ++ u ∧ Number 32 i.toNat l ∧ NthDenotesIn bits mode room hs i.toNat c u rest
  | h, b, bs, _ => BodyDenotes mode room h b bs
/-- Member by member. -/
def BodiesDenoteIn (bits : Nat) (mode : BuildMode) (room : Nat → Prop) :
    List Header → List Body → List UInt8 → List UInt8 → Prop
  | [], cs, bs, _ => cs = [] ∧ bs = []
  | h :: hs, cs, bs, rest => ∃ d ds u x, cs = d :: ds ∧ bs = u ++ x ∧
      BodyDenotesIn bits mode room h d u (x ++ rest) ∧ BodiesDenoteIn bits mode room hs ds x rest
/-- Under the member at a position. -/
def NthDenotesIn (bits : Nat) (mode : BuildMode) (room : Nat → Prop) :
    List Header → Nat → Body → List UInt8 → List UInt8 → Prop
  | [], _, _, _, _ => False
  | h :: _, 0, b, bs, rest => BodyDenotesIn bits mode room h b bs rest
  | _ :: hs, n + 1, b, bs, rest => NthDenotesIn bits mode room hs n b bs rest
end

mutual
/-- `TypeDenotesIn bits mode env T v bs rest`: followed by `rest` and then the end of the input,
`bs` stands for the value `v` of the Rust type `T`. -/
def TypeDenotesIn (bits : Nat) (mode : BuildMode) (env : Env) :
    (T : RTy) → Carrier T → List UInt8 → List UInt8 → Prop
  | .option _, none, bs, _ => bs = [0]
  | .option T, some v, bs, rest => ∃ u, bs = 1 :: u ∧ TypeDenotesIn bits mode env T v u rest
  | .bigUint, v, bs, _ => CountedIn bits v.bytes bs
  | .numBigUint, n, bs, _ => ∃ body, leValue body = n ∧ CountedIn bits body bs
  | .bigInt, v, bs, _ => CountedIn bits v.bytes bs
  | .numBigInt, x, bs, _ => ∃ body, signedValue body = x ∧ CountedIn bits body bs
  | .bigDecimal, v, bs, _ => DecimalIn bits v bs
  | .numBigDecimal, v, bs, _ => ∃ body l u, bs = l ++ u ∧ signedValue body = v.intVal ∧
      CountedIn bits body l ∧
      ((v.intVal = 0 ∧ v.scale = 0 ∧ u = []) ∨ (v.intVal ≠ 0 ∧ Number 64 (zigzag v.scale.toInt) u))
  | .string, s, bs, rest => TextIn bits (utf8 s) bs rest
  | .byteBuf, body, bs, _ => BytesIn bits body bs
  | .vec T, vs, bs, rest => ∃ l u, bs = l ++ u ∧ CountIn bits vs.length l ∧
      JoinedIn (TypeDenotesIn bits mode env T) vs u rest
  | .btreeMap T, m, bs, rest => ∃ es l u, Collected es m ∧ bs = l ++ u ∧
      CountIn bits es.length l ∧ JoinedIn (EntryIn bits (TypeDenotesIn bits mode env T)) es u rest
  | .hashMap T, w, bs, rest => ∃ es m l u, w = env.order m ∧ Gathered es m ∧ bs = l ++ u ∧
      CountIn bits es.length l ∧ JoinedIn (EntryIn bits (TypeDenotesIn bits mode env T)) es u rest
  | .tuple Ts, v, bs, rest => TupleDenotesIn bits mode env Ts v bs rest
  | .struct _ (.named fs), v, bs, rest => FieldsDenoteIn bits mode env fs v bs rest
  | .struct _ (.unnamed []), _, bs, _ => bs = []
  | .struct _ (.unnamed [.mk _ _ T]), v, bs, rest => TypeDenotesIn bits mode env T v.1 bs rest
  | .struct _ (.unnamed (f :: g :: fs)), v, bs, rest =>
      FieldsDenoteIn bits mode env (f :: g :: fs) v bs rest
  | .struct _ .unit, _, bs, _ => bs = []
  | .enum _ vs, v, bs, rest => ∃ (i : UInt16) (l u : List UInt8), bs = l ++ u ∧
      Number 16 i.toNat l ∧ VariantDenotesIn bits mode env i.toNat vs v u rest
  -- no lengths: as in Spec/DeriveGrammar.lean
  | .unit, v, bs, _ => TypeDenotes mode env .unit v bs
  | .bool, v, bs, _ => TypeDenotes mode env .bool v bs
  | .u8, v, bs, _ => TypeDenotes mode env .u8 v bs
  | .u16, v, bs, _ => TypeDenotes mode env .u16 v bs
  | .u32, v, bs, _ => TypeDenotes mode env .u32 v bs
  | .u64, v, bs, _ => TypeDenotes mode env .u64 v bs
  | .i8, v, bs, _ => TypeDenotes mode env .i8 v bs
  | .i16, v, bs, _ => TypeDenotes mode env .i16 v bs
  | .i32, v, bs, _ => TypeDenotes mode env .i32 v bs
  | .i64, v, bs, _ => TypeDenotes mode env .i64 v bs
  | .f32, v, bs, _ => TypeDenotes mode env .f32 v bs
  | .f64, v, bs, _ => TypeDenotes mode env .f64 v bs
  | .str, v, bs, _ => TypeDenotes mode env .str v bs
  | .bytes, v, bs, _ => TypeDenotes mode env .bytes v bs
  | .date, v, bs, _ => TypeDenotes mode env .date v bs
  | .timeDate, v, bs, _ => TypeDenotes mode env .timeDate v bs
  | .dateTime, v, bs, _ => TypeDenotes mode env .dateTime v bs
  | .offsetDateTime, v, bs, _ => TypeDenotes mode env .offsetDateTime v bs
  | .union _, _, _, _ => False
  | .foreign, _, _, _ => False
/-- Member by member. -/
def TupleDenotesIn (bits : Nat) (mode : BuildMode) (env : Env) :
    (Ts : List RTy) → TupleCarrier Ts → List UInt8 → List UInt8 → Prop
  | [], _, bs, _ => bs = []
  | T :: Ts, v, bs, rest => ∃ u x, bs = u ++ x ∧ TypeDenotesIn bits mode env T v.1 u (x ++ rest) ∧
      TupleDenotesIn bits mode env Ts v.2 x rest
/-- Field by field; one left out has its default and no bytes. -/
def FieldsDenoteIn (bits : Nat) (mode : BuildMode) (env : Env) :
    (fs : List RField) → FieldCarrier fs → List UInt8 → List UInt8 → Prop
  | [], _, bs, _ => bs = []
  | .mk attrs _ T :: fs, v, bs, rest => ∃ u x, bs = u ++ x ∧
      ((SkippedDe attrs ∧ env.dflt attrs T = some v.1 ∧ u = []) ∨
       (¬ SkippedDe attrs ∧ TypeDenotesIn bits mode env T v.1 u (x ++ rest))) ∧
      FieldsDenoteIn bits mode env fs v.2 x rest
/-- The variant at a position among those not left out, and its fields. -/
def VariantDenotesIn (bits : Nat) (mode : BuildMode) (env : Env) :
    Nat → (vs : List RVariant) → VariantsCarrier vs → List UInt8 → List UInt8 → Prop
  | _, [], _, _, _ => False
  | n, .mk attrs _ fields :: _, .inl v, bs, rest => n = 0 ∧ ¬ SkippedDe attrs ∧
      PayloadDenotesIn bits mode env fields v bs rest
  | n, .mk attrs _ _ :: vs, .inr v, bs, rest =>
      (SkippedDe attrs ∧ VariantDenotesIn bits mode env n vs v bs rest) ∨
      (¬ SkippedDe attrs ∧ ∃ m, n = m + 1 ∧ VariantDenotesIn bits mode env m vs v bs rest)
/-- The fields of a variant. -/
def PayloadDenotesIn (bits : Nat) (mode : BuildMode) (env : Env) :
    (fields : RFields) → FieldsCarrier fields → List UInt8 → List UInt8 → Prop
  | .named fs, v, bs, rest => FieldsDenoteIn bits mode env fs v bs rest
  | .unnamed fs, v, bs, rest => FieldsDenoteIn bits mode env fs v bs rest
  | .unit, _, bs, _ => bs = []
end

end Dlhn.Spec
