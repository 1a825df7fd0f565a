import Verif.Spec.DeriveDe
/-!
# Specification of agreement between typed and dynamic decoding

When a typed value and a dynamic value say the same, and for which types both
decoders should be compared.
-/
namespace Dlhn.Spec

open Derive (Carrier TupleCarrier FieldCarrier FieldsCarrier VariantsCarrier)

mutual
/-- `SameContent T v b`: the value `v : T` and the body `b` say the same. Numbers
are compared by value and timestamps by instant, in nanoseconds since the epoch. -/
def SameContent : (T : RTy) → Carrier T → Body → Prop
  | .unit, _, b => b = .unit
  | .option _, none, b => b = .none
  | .option T, some v, b => ∃ c, b = .some c ∧ SameContent T v c
  | .bool, v, b => b = .boolean v
  | .u8, v, b => b = .uint8 v
  | .u16, v, b => b = .uint16 v
  | .u32, v, b => b = .uint32 v
  | .u64, v, b => b = .uint64 v
  | .i8, v, b => b = .int8 v
  | .i16, v, b => b = .int16 v
  | .i32, v, b => b = .int32 v
  | .i64, v, b => b = .int64 v
  | .f32, v, b => b = .float32 v
  | .f64, v, b => b = .float64 v
  | .bigUint, v, b => b = .bigUInt v
  | .numBigUint, n, b => ∃ c, b = .bigUInt c ∧ leValue c.bytes = n
  | .bigInt, v, b => b = .bigInt v
  | .numBigInt, x, b => ∃ c, b = .bigInt c ∧ signedValue c.bytes = x
  | .bigDecimal, v, b => b = .bigDecimal v
  | .numBigDecimal, v, b => ∃ c, b = .bigDecimal c ∧
      SameNumber v ⟨signedValue c.signedBytes, c.scale⟩
  | .str, s, b => b = .string s
  | .string, s, b => b = .string s
  | .bytes, bs, b => b = .binary bs
  | .byteBuf, bs, b => b = .binary bs
  | .vec T, vs, b => ∃ cs, b = .array cs ∧ Pointwise (SameContent T) vs cs
  | .date, d, b => b = .date d
  | .timeDate, d, b => b = .date ⟨d.year, d.ordinal⟩
  | .dateTime, d, b => b = .dateTime d
  | .offsetDateTime, d, b => ∃ c, b = .dateTime c ∧
      d.instant = c.unixTimestamp.toInt * 1000000000 + c.nanosecond.toNat
  | .btreeMap T, es, b => ∃ cs, b = .map cs ∧ Ascending cs ∧
      Pointwise (fun e c => e.1 = c.1 ∧ SameContent T e.2 c.2) es cs
  -- the same entries, in key order
  | .hashMap T, es, b => ∃ cs cs', b = .map cs ∧ Ascending cs ∧ cs.Perm cs' ∧
      Pointwise (fun e c => e.1 = c.1 ∧ SameContent T e.2 c.2) es cs'
  | .tuple Ts, vs, b => ∃ cs, b = .tuple cs ∧ SameMembers Ts vs cs
  | .struct _ (.named fs), vs, b => ∃ cs, b = .tuple cs ∧ SameFields fs vs cs
  | .struct _ (.unnamed fs), vs, b => ∃ cs, b = .tuple cs ∧ SameFields fs vs cs
  | .struct _ .unit, _, b => b = .tuple []
  | .enum _ vs, v, b => SameVariant 0 vs v b
  | .foreign, _, _ => False
/-- Member by member. -/
def SameMembers : (Ts : List RTy) → TupleCarrier Ts → List Body → Prop
  | [], _, cs => cs = []
  | T :: Ts, (v, vs), cs => ∃ c cs', cs = c :: cs' ∧ SameContent T v c ∧ SameMembers Ts vs cs'
/-- Field by field, without the skipped ones. -/
def SameFields : (fs : List RField) → FieldCarrier fs → List Body → Prop
  | [], _, cs => cs = []
  | .mk attrs _ T :: fs, (v, vs), cs =>
    if Skipped attrs then SameFields fs vs cs
    else ∃ c cs', cs = c :: cs' ∧ SameContent T v c ∧ SameFields fs vs cs'
/-- The variant with its position among all variants, the first of which has
position `i`, and its payload. -/
def SameVariant (i : Nat) : (vs : List RVariant) → VariantsCarrier vs → Body → Prop
  | .mk _ _ fields :: _, .inl v, b => ∃ k c, b = .enum k c ∧ k.toNat = i ∧ (match fields, v with
      | .named fs, v => SamePayload fs v c
      | .unnamed fs, v => SamePayload fs v c
      | .unit, _ => c = .unit)
  | .mk _ _ _ :: vs, .inr v, b => SameVariant (i + 1) vs v b
/-- The payload: nothing, the single field, or the tuple of the fields. -/
def SamePayload : (fs : List RField) → FieldCarrier fs → Body → Prop
  | [], _, c => c = .unit
  | [.mk _ _ T], (v, _), c => SameContent T v c
  | f :: g :: fs, vs, c => ∃ cs, c = .tuple cs ∧ SameFields (f :: g :: fs) vs cs
end

/-- One type is read alike by both decoders: it can be read, it is free of the
attributes that separate the type from its header, and it is not
`bigdecimal::BigDecimal` (property C65). -/
def ComparablePart : RTy → Prop
  | .numBigDecimal => False
  | T => ReadablePart T ∧ PlainPart T ∧ SymmetricPart T

/-- The type and all types inside it. -/
def Comparable (T : RTy) : Prop := ∀ U ∈ typeParts T, ComparablePart U

/-- One type whose reader rejects some of the dates and times that `Body` keeps. -/
def CheckedPart : RTy → Prop
  | .timeDate => True
  | .offsetDateTime => True
  | _ => False

/-- The type contains `time::Date` or `time::OffsetDateTime`. -/
def ChecksTime (T : RTy) : Prop := ∃ U ∈ typeParts T, CheckedPart U

/-- The type contains `bigdecimal::BigDecimal`. -/
def HasNumDecimal (T : RTy) : Prop := .numBigDecimal ∈ typeParts T

/-- No enum in the type has more than `n` variants. -/
def EnumsUpTo (n : Nat) (T : RTy) : Prop := ∀ name vs, .enum name vs ∈ typeParts T → vs.length ≤ n

/-- Nowhere in the data an index below `n` would be read differently as a 16-bit number (by type)
and as a 32-bit number (by header): from every place on the two numbers are the same, or neither
is below `n`. -/
def AlikeIndexes (n : Nat) (bs : List UInt8) : Prop := ∀ r, r <:+ bs →
  varintDecode 16 r = varintDecode 32 r ∨
    (∀ i rest, varintDecode 16 r = some (i, rest) → n ≤ i) ∧
      ∀ i rest, varintDecode 32 r = some (i, rest) → n ≤ i

/-- There is an enum in the type. -/
def HasEnum (T : RTy) : Prop := ∃ name vs, .enum name vs ∈ typeParts T

end Dlhn.Spec
