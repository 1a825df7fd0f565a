import Verif.Spec.BodyGrammar
import Verif.Spec.DeriveDe
/-!
# Specification: which bytes are read as which value of a Rust type

As Spec/Grammar.lean, for `T::deserialize` of the types that have a header and of derived types.
-/
namespace Dlhn.Spec

open Derive (Carrier TupleCarrier FieldCarrier FieldsCarrier VariantsCarrier Env)

/-- The entries of a hash map in the order in which their keys came first, of several entries
with one key the last. -/
def Gathered {α : Type} (es m : List (String × α)) : Prop :=
  m.map Prod.fst = (es.map Prod.fst).eraseDups ∧
    ∀ e ∈ m, ∃ before after, es = before ++ e :: after ∧ ∀ x ∈ after, x.1 ≠ e.1

mutual
/-- `TypeDenotes mode env T v bs`: the byte string `bs` stands for the value `v` of the Rust
type `T`. `env` has the defaults of fields left out and the iteration order of hash maps. -/
def TypeDenotes (mode : BuildMode) (env : Env) : (T : RTy) → Carrier T → List UInt8 → Prop
  | .unit, _, bs => bs = []
  | .option _, none, bs => bs = [0]
  | .option T, some v, bs => ∃ u, bs = 1 :: u ∧ TypeDenotes mode env T v u
  | .bool, b, bs => bs = [if b then 1 else 0]
  | .u8, x, bs => bs = [x]
  | .u16, x, bs => Number 16 x.toNat bs
  | .u32, x, bs => Number 32 x.toNat bs
  | .u64, x, bs => Number 64 x.toNat bs
  | .i8, x, bs => bs = [x.toUInt8]
  | .i16, x, bs => Number 16 (zigzag x.toInt) bs
  | .i32, x, bs => Number 32 (zigzag x.toInt) bs
  | .i64, x, bs => Number 64 (zigzag x.toInt) bs
  | .f32, x, bs => bs = leBytes 4 x.toNat
  | .f64, x, bs => bs = leBytes 8 x.toNat
  | .bigUint, v, bs => Prefixed v.bytes bs
  | .numBigUint, n, bs => ∃ body, leValue body = n ∧ Prefixed body bs
  | .bigInt, v, bs => Prefixed v.bytes bs
  | .numBigInt, x, bs => ∃ body, signedValue body = x ∧ Prefixed body bs
  -- without digits there is no scale
  | .bigDecimal, v, bs =>
      (v.signedBytes = [] ∧ v.scale = 0 ∧ Prefixed [] bs) ∨
      (v.signedBytes ≠ [] ∧ ∃ l u, bs = l ++ u ∧ Prefixed v.signedBytes l ∧
        Number 64 (zigzag v.scale.toInt) u)
  -- for zero there is no scale
  | .numBigDecimal, v, bs => ∃ body l u, bs = l ++ u ∧ signedValue body = v.intVal ∧
      Prefixed body l ∧
      ((v.intVal = 0 ∧ v.scale = 0 ∧ u = []) ∨ (v.intVal ≠ 0 ∧ Number 64 (zigzag v.scale.toInt) u))
  -- borrowed data cannot be read
  | .str, _, _ => False
  | .string, s, bs => Prefixed (utf8 s) bs
  | .bytes, _, _ => False
  | .byteBuf, body, bs => Prefixed body bs
  | .vec T, vs, bs => ∃ l u, bs = l ++ u ∧ Number 64 vs.length l ∧
      Joined (TypeDenotes mode env T) vs u
  | .date, d, bs => DateDenotes mode d bs
  -- only days that exist
  | .timeDate, d, bs => d.Valid ∧ DateDenotes mode ⟨d.year, d.ordinal⟩ bs
  | .dateTime, d, bs => ∃ l u, bs = l ++ u ∧
      Number 64 (zigzag d.unixTimestamp.toInt) l ∧ Number 32 d.nanosecond.toNat u
  -- only seconds and instants in range; nanoseconds beyond a second are carried
  | .offsetDateTime, d, bs => ∃ (s : Int64) (n : UInt32) (l u : List UInt8), bs = l ++ u ∧
      Number 64 (zigzag s.toInt) l ∧ Number 32 n.toNat u ∧
      firstSecond ≤ s.toInt ∧ s.toInt ≤ lastSecond ∧
      d.instant = s.toInt * 1000000000 + n.toNat ∧ d.nanos < 1000000000 ∧ d.offset = 0 ∧
      d.seconds ≤ lastSecond
  | .btreeMap T, m, bs => ∃ es l u, Collected es m ∧ bs = l ++ u ∧ Number 64 es.length l ∧
      Joined (fun e x => ∃ y z, x = y ++ z ∧ Prefixed (utf8 e.1) y ∧
        TypeDenotes mode env T e.2 z) es u
  | .hashMap T, w, bs => ∃ es m l u, w = env.order m ∧ Gathered es m ∧ bs = l ++ u ∧
      Number 64 es.length l ∧
      Joined (fun e x => ∃ y z, x = y ++ z ∧ Prefixed (utf8 e.1) y ∧
        TypeDenotes mode env T e.2 z) es u
  | .tuple Ts, v, bs => TupleDenotes mode env Ts v bs
  | .struct _ (.named fs), v, bs => FieldsDenote mode env fs v bs
  | .struct _ (.unnamed []), _, bs => bs = []
  -- the attributes of the field of a newtype are not looked at
  | .struct _ (.unnamed [.mk _ _ T]), v, bs => TypeDenotes mode env T v.1 bs
  | .struct _ (.unnamed (f :: g :: fs)), v, bs => FieldsDenote mode env (f :: g :: fs) v bs
  | .struct _ .unit, _, bs => bs = []
  -- the index as a 16-bit number
  | .enum _ vs, v, bs => ∃ (i : UInt16) (l u : List UInt8), bs = l ++ u ∧ Number 16 i.toNat l ∧
      VariantDenotes mode env i.toNat vs v u
  | .union _, _, _ => False
  | .foreign, _, _ => False
/-- Member by member. -/
def TupleDenotes (mode : BuildMode) (env : Env) : (Ts : List RTy) → TupleCarrier Ts → List UInt8 → Prop
  | [], _, bs => bs = []
  | T :: Ts, v, bs => ∃ u x, bs = u ++ x ∧ TypeDenotes mode env T v.1 u ∧
      TupleDenotes mode env Ts v.2 x
/-- Field by field; one left out has its default and no bytes. -/
def FieldsDenote (mode : BuildMode) (env : Env) :
    (fs : List RField) → FieldCarrier fs → List UInt8 → Prop
  | [], _, bs => bs = []
  | .mk attrs _ T :: fs, v, bs => ∃ u x, bs = u ++ x ∧
      ((SkippedDe attrs ∧ env.dflt attrs T = some v.1 ∧ u = []) ∨
       (¬ SkippedDe attrs ∧ TypeDenotes mode env T v.1 u)) ∧
      FieldsDenote mode env fs v.2 x
/-- The variant at a position among those not left out, and its fields. -/
def VariantDenotes (mode : BuildMode) (env : Env) :
    Nat → (vs : List RVariant) → VariantsCarrier vs → List UInt8 → Prop
  | _, [], _, _ => False
  | n, .mk attrs _ fields :: _, .inl v, bs => n = 0 ∧ ¬ SkippedDe attrs ∧
      PayloadDenotes mode env fields v bs
  | n, .mk attrs _ _ :: vs, .inr v, bs => (SkippedDe attrs ∧ VariantDenotes mode env n vs v bs) ∨
      (¬ SkippedDe attrs ∧ ∃ m, n = m + 1 ∧ VariantDenotes mode env m vs v bs)
/-- The fields of a variant. -/
def PayloadDenotes (mode : BuildMode) (env : Env) :
    (fields : RFields) → FieldsCarrier fields → List UInt8 → Prop
  | .named fs, v, bs => FieldsDenote mode env fs v bs
  | .unnamed fs, v, bs => FieldsDenote mode env fs v bs
  | .unit, _, bs => bs = []
end

/-- One type has, among the byte strings that are no longer than the encoding, only the encoding:
not a map (order of the entries), `bigdecimal::BigDecimal` or `time::OffsetDateTime` (both are
normalised), and with `narrow = false` no numbers of 16 or 32 bits, dates and times. -/
def FirmPart (narrow : Bool) : RTy → Prop
  | .btreeMap _ => False
  | .hashMap _ => False
  | .numBigDecimal => False
  | .offsetDateTime => False
  | .u16 => narrow
  | .u32 => narrow
  | .i16 => narrow
  | .i32 => narrow
  | .date => narrow
  | .timeDate => narrow
  | .dateTime => narrow
  | _ => True

/-- The type and all types inside it have. -/
def Firm (narrow : Bool) (T : RTy) : Prop := ∀ U ∈ typeParts T, FirmPart narrow U

end Dlhn.Spec
