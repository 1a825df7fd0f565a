import Verif.Model.DeriveDe
import Verif.Spec.Derive
/-!
# Specification of reading values of Rust types

Which value comes back, and for which types.
-/
namespace Dlhn.Spec

open Derive (Carrier TupleCarrier FieldCarrier FieldsCarrier VariantsCarrier Env)

/-- Never deserialized. -/
def SkippedDe (attrs : List Attr) : Prop :=
  HasSerdeItem attrs "skip" ∨ HasSerdeItem attrs "skip_deserializing"

instance (attrs : List Attr) : Decidable (SkippedDe attrs) :=
  inferInstanceAs (Decidable (_ ∨ _))

/-- The iteration order of a `HashMap` lists the entries of the map. -/
def FairOrder (env : Env) : Prop :=
  ∀ {α : Type} (es : List (String × α)), (env.order es).Perm es

/-! ## The value that comes back -/

mutual
/-- `Returned env T v w`: reading the bytes of `v : T` should give `w`. It is `v`
itself except that skipped fields get their default, timestamps come back in UTC,
decimals as the same number, a scale without digits is lost (property C48), and
the iteration order of `HashMap`s is free. -/
def Returned (env : Env) : (T : RTy) → Carrier T → Carrier T → Prop
  | .option _, none, w => w = none
  | .option T, some v, w => ∃ u, w = some u ∧ Returned env T v u
  | .bigDecimal, v, w => w = if v.signedBytes = [] then ⟨[], 0⟩ else v
  | .numBigDecimal, v, w => SameNumber v w
  | .offsetDateTime, v, w => w.instant = v.instant ∧ w.offset = 0
  | .vec T, vs, ws => Pointwise (Returned env T) vs ws
  | .btreeMap T, es, ws => Pointwise (fun e w => e.1 = w.1 ∧ Returned env T e.2 w.2) es ws
  | .hashMap T, es, ws => ∃ ws', ws.Perm ws' ∧
      Pointwise (fun e w => e.1 = w.1 ∧ Returned env T e.2 w.2) es ws'
  | .tuple Ts, vs, ws => TupleReturned env Ts vs ws
  | .struct _ (.named fs), vs, ws => FieldsReturned env fs vs ws
  | .struct _ (.unnamed fs), vs, ws => FieldsReturned env fs vs ws
  | .enum _ vs, v, w => VariantReturned env vs v w
  | _, v, w => w = v
/-- Member by member. -/
def TupleReturned (env : Env) : (Ts : List RTy) → TupleCarrier Ts → TupleCarrier Ts → Prop
  | [], _, _ => True
  | T :: Ts, (v, vs), (w, ws) => Returned env T v w ∧ TupleReturned env Ts vs ws
/-- Field by field. -/
def FieldsReturned (env : Env) : (fs : List RField) → FieldCarrier fs → FieldCarrier fs → Prop
  | [], _, _ => True
  | .mk attrs _ T :: fs, (v, vs), (w, ws) =>
    (if SkippedDe attrs then env.dflt attrs T = some w else Returned env T v w) ∧
      FieldsReturned env fs vs ws
/-- The same variant. -/
def VariantReturned (env : Env) : (vs : List RVariant) → VariantsCarrier vs → VariantsCarrier vs → Prop
  | .mk _ _ (.named fs) :: _, .inl v, .inl w => FieldsReturned env fs v w
  | .mk _ _ (.unnamed fs) :: _, .inl v, .inl w => FieldsReturned env fs v w
  | .mk _ _ .unit :: _, .inl _, .inl _ => True
  | .mk _ _ _ :: vs, .inr v, .inr w => VariantReturned env vs v w
  | .mk _ _ _ :: _, .inl _, .inr _ => False
  | .mk _ _ _ :: _, .inr _, .inl _ => False
end

/-- The fields of a struct but the last one. -/
def initFields {f : RField} : (fs : List RField) → FieldCarrier (fs ++ [f]) → FieldCarrier fs
  | [], _ => ()
  | .mk _ _ _ :: fs, (v, vs) => (v, initFields fs vs)

/-- The last field of a struct. -/
def lastField {attrs : List Attr} {name : String} {T : RTy} :
    (fs : List RField) → FieldCarrier (fs ++ [.mk attrs name T]) → Carrier T
  | [], (v, _) => v
  | .mk _ _ _ :: fs, (_, vs) => lastField fs vs

/-! ## Conditions on types -/

/-- One type can be read: not a borrowed string or byte slice, not a union or
unknown type. -/
def ReadablePart : RTy → Prop
  | .str => False
  | .bytes => False
  | .union _ => False
  | .foreign => False
  | _ => True

/-- Everything serialized inside the type can be read. -/
def Readable (T : RTy) : Prop := ∀ U ∈ typeParts T, ReadablePart U

/-- Fields are skipped in both directions or in none, never depending on the
value. -/
def SymmetricFields (fs : List RField) : Prop :=
  ∀ f ∈ fs, (Skipped (fieldAttrs f) ↔ SkippedDe (fieldAttrs f)) ∧ ¬ Conditional (fieldAttrs f)

/-- One type is written and read alike: its fields are skipped symmetrically, the
field of a newtype struct is not skipped, and an enum has no skipped variants and
at most 16384 of them (property C21). -/
def SymmetricPart : RTy → Prop
  | .struct _ (.named fs) => SymmetricFields fs
  | .struct _ (.unnamed fs) => SymmetricFields fs ∧ (fs.length = 1 → ∀ f ∈ fs, ¬ Skipped (fieldAttrs f))
  | .enum _ vs => vs.length ≤ 16384 ∧ ∀ v ∈ vs, ¬ Skipped (variantAttrs v) ∧
      ¬ SkippedDe (variantAttrs v) ∧ SymmetricFields (variantFields v)
  | _ => True

/-- The type and all types inside it are written and read alike. -/
def Symmetric (T : RTy) : Prop := ∀ U ∈ typeParts T, SymmetricPart U

/-- The skipped fields have defaults. -/
def DefaultedFields (env : Env) (fs : List RField) : Prop :=
  ∀ f ∈ fs, SkippedDe (fieldAttrs f) → ∃ v, env.dflt (fieldAttrs f) (fieldType f) = some v

/-- The skipped fields of one type have defaults. -/
def DefaultedPart (env : Env) : RTy → Prop
  | .struct _ fields => DefaultedFields env (declared fields)
  | .enum _ vs => ∀ v ∈ vs, DefaultedFields env (variantFields v)
  | _ => True

/-- The skipped fields of the type have defaults (otherwise it does not compile). -/
def Defaulted (env : Env) (T : RTy) : Prop := ∀ U ∈ typeParts T, DefaultedPart env U

/-- The instants of the `OffsetDateTime`s in the value are in range (property C52). -/
def InstantsInRange (T : RTy) (v : Carrier T) : Prop :=
  ∀ d : Time.OffsetDateTime, ⟨.offsetDateTime, d⟩ ∈ valueParts T v → UtcInRange d

/-- One type loses nothing: no skipped fields, `BigDecimal`s, timestamps with an
offset or `HashMap`s. -/
def LosslessPart : RTy → Prop
  | .bigDecimal => False
  | .numBigDecimal => False
  | .offsetDateTime => False
  | .hashMap _ => False
  | .struct _ fields => ∀ f ∈ declared fields, ¬ SkippedDe (fieldAttrs f)
  | .enum _ vs => ∀ v ∈ vs, ∀ f ∈ variantFields v, ¬ SkippedDe (fieldAttrs f)
  | _ => True

/-- The type and all types inside it lose nothing. -/
def Lossless (T : RTy) : Prop := ∀ U ∈ typeParts T, LosslessPart U

/-- The number of variants in the list that can be deserialized. -/
def readCount (vs : List RVariant) : Nat := (vs.filter fun v => ¬ SkippedDe (variantAttrs v)).length

/-- The `bigdecimal::BigDecimal`s in the value can be normalised (property C45). -/
def DecimalsNormalise (T : RTy) (v : Carrier T) : Prop :=
  ∀ d : Num.Decimal, ⟨.numBigDecimal, d⟩ ∈ valueParts T v → ScaleFits d

/-- Byte buffers do not exceed the memory of a 32-bit target. -/
def BuffersFit (t : Target) (T : RTy) (v : Carrier T) : Prop :=
  t.ptr = .w64 ∨ ∀ b : List UInt8, ⟨.byteBuf, b⟩ ∈ valueParts T v → b.length < 2 ^ 32

/-- No decimals, which change their representation, and no maps of free order. -/
def Determined (T : RTy) : Prop :=
  ∀ U ∈ typeParts T, U ≠ .numBigDecimal ∧ ∀ V, U ≠ .hashMap V

/-- No decimals and timestamps of other crates, which are normalised when read or
written. -/
def Unnormalised (T : RTy) : Prop :=
  ∀ U ∈ typeParts T, U ≠ .numBigDecimal ∧ U ≠ .offsetDateTime

/-! ## Parts that are read -/

mutual
/-- A type and the types of everything deserialized inside it. -/
def readParts : RTy → List RTy
  | .option T => .option T :: readParts T
  | .vec T => .vec T :: readParts T
  | .btreeMap T => .btreeMap T :: readParts T
  | .hashMap T => .hashMap T :: readParts T
  | .tuple Ts => .tuple Ts :: readPartsAll Ts
  | .struct name (.named fs) => .struct name (.named fs) :: readPartsFields fs
  -- the field of a newtype struct is read whatever its attributes
  | .struct name (.unnamed [.mk attrs fname T]) =>
    .struct name (.unnamed [.mk attrs fname T]) :: readParts T
  | .struct name (.unnamed fs) => .struct name (.unnamed fs) :: readPartsFields fs
  | .struct name .unit => [.struct name .unit]
  | .enum name vs => .enum name vs :: readPartsVariants vs
  | T => [T]
/-- Of all members. -/
def readPartsAll : List RTy → List RTy
  | [] => []
  | T :: Ts => readParts T ++ readPartsAll Ts
/-- Of the fields that are not skipped when deserializing. -/
def readPartsFields : List RField → List RTy
  | [] => []
  | .mk attrs _ T :: fs => (if SkippedDe attrs then [] else readParts T) ++ readPartsFields fs
/-- Of the variants that are not skipped when deserializing. -/
def readPartsVariants : List RVariant → List RTy
  | [] => []
  | .mk attrs _ fields :: vs =>
    (if SkippedDe attrs then [] else readPartsPayload fields) ++ readPartsVariants vs
/-- Of the payload of a variant. -/
def readPartsPayload : RFields → List RTy
  | .named fs => readPartsFields fs
  | .unnamed fs => readPartsFields fs
  | .unit => []
end

end Dlhn.Spec
