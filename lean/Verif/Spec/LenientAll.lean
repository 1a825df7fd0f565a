import Verif.Spec.Lenient
import Verif.Spec.Body
import Verif.Spec.DeriveDe
/-!
# Specification: headers and derived types that can notice bad data

Whether a `dlhn::Date` is lenient depends on the build: with overflow checks its
year can be out of range. Nothing here mentions the decoder.
-/
namespace Dlhn.Spec

mutual
/-- Numbers, bytes, dates and timestamps, and tuples of them: no booleans, options, enums,
strings, maps and arrays. -/
def LenientHeader (mode : BuildMode) : Header → Prop
  | .unit | .uint8 | .uint16 | .uint32 | .uint64 | .int8 | .int16 | .int32 | .int64 => True
  | .float32 | .float64 | .bigUInt | .bigInt | .bigDecimal | .binary | .dateTime => True
  | .date => mode = .release
  | .tuple hs => AllLenientHeader mode hs
  | _ => False
/-- All members are. -/
def AllLenientHeader (mode : BuildMode) : List Header → Prop
  | [] => True
  | h :: hs => LenientHeader mode h ∧ AllLenientHeader mode hs
end

mutual
/-- Numbers, bytes, `dlhn::Date` and `dlhn::DateTime`, and what vectors, tuples, structs and
units make of them. -/
def LenientDerived (mode : BuildMode) : RTy → Prop
  | .unit | .u8 | .u16 | .u32 | .u64 | .i8 | .i16 | .i32 | .i64 | .f32 | .f64 => True
  | .bigUint | .numBigUint | .bigInt | .numBigInt | .bigDecimal | .numBigDecimal => True
  | .byteBuf | .dateTime => True
  | .date => mode = .release
  | .vec T => LenientDerived mode T
  | .tuple Ts => AllLenientDerived mode Ts
  | .struct _ (.named fs) => FieldsLenientDerived mode fs
  -- the field of a newtype struct is read whatever its attributes
  | .struct _ (.unnamed [.mk _ _ T]) => LenientDerived mode T
  | .struct _ (.unnamed fs) => FieldsLenientDerived mode fs
  | .struct _ .unit => True
  | _ => False
/-- All members are. -/
def AllLenientDerived (mode : BuildMode) : List RTy → Prop
  | [] => True
  | T :: Ts => LenientDerived mode T ∧ AllLenientDerived mode Ts
/-- All fields that are not skipped when deserializing are. -/
def FieldsLenientDerived (mode : BuildMode) : List RField → Prop
  | [] => True
  | .mk attrs _ T :: fs =>
    (¬ SkippedDe attrs → LenientDerived mode T) ∧ FieldsLenientDerived mode fs
end

/-- The skipped fields of everything read have defaults (otherwise it does not compile). -/
def DefaultedRead (env : Derive.Env) (T : RTy) : Prop := ∀ U ∈ readParts T, DefaultedPart env U

/-- Every enum in the type has fewer than 65536 variants that can be deserialized. -/
def SmallEnumsDerived (T : RTy) : Prop :=
  ∀ name vs, .enum name vs ∈ readParts T → readCount vs < 65536

end Dlhn.Spec
