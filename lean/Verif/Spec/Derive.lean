import Verif.Model.Derive
import Verif.Spec.Header
import Verif.Spec.BigNum
import Verif.Spec.Date
/-!
# Specification of types: which header describes a type, which body mirrors a value

Only the types `RTy`, `Header`, `Body`, the values `Carrier T` and the records
inside them are taken from the model.
-/
namespace Dlhn.Spec

open Derive (Carrier TupleCarrier FieldCarrier FieldsCarrier VariantsCarrier)

/-! ## Fields and attributes -/

/-- The declared fields, in order. -/
def declared : RFields → List RField
  | .named fs => fs
  | .unnamed fs => fs
  | .unit => []

/-- The attributes of a field. -/
def fieldAttrs : RField → List Attr
  | .mk attrs _ _ => attrs

/-- The type of a field. -/
def fieldType : RField → RTy
  | .mk _ _ T => T

/-- The attributes of a variant. -/
def variantAttrs : RVariant → List Attr
  | .mk attrs _ _ => attrs

/-- The fields of a variant. -/
def variantFields : RVariant → List RField
  | .mk _ _ fields => declared fields

/-- `#[serde(.., item, ..)]` is among the attributes. -/
def HasSerdeItem (attrs : List Attr) (item : String) : Prop :=
  ∃ a ∈ attrs, a.path = some "serde" ∧ some item ∈ a.items.getD []

instance (attrs : List Attr) (item : String) : Decidable (HasSerdeItem attrs item) :=
  inferInstanceAs (Decidable (∃ a ∈ attrs, a.path = some "serde" ∧ some item ∈ a.items.getD []))

/-- Never serialized. -/
def Skipped (attrs : List Attr) : Prop :=
  HasSerdeItem attrs "skip" ∨ HasSerdeItem attrs "skip_serializing"

instance (attrs : List Attr) : Decidable (Skipped attrs) :=
  inferInstanceAs (Decidable (_ ∨ _))

/-- Serialized or not depending on the value. -/
def Conditional (attrs : List Attr) : Prop := HasSerdeItem attrs "skip_serializing_if"

instance (attrs : List Attr) : Decidable (Conditional attrs) :=
  inferInstanceAs (Decidable (HasSerdeItem _ _))

/-- The types of the serialized fields, in declaration order. -/
def serializedTypes (fs : List RField) : List RTy :=
  (fs.filter fun f => ¬ Skipped (fieldAttrs f)).map fieldType

/-- The fields but one. -/
def withoutField {f : RField} {post : List RField} :
    (pre : List RField) → FieldCarrier (pre ++ f :: post) → FieldCarrier (pre ++ post)
  | [], v => match f, v with
    | .mk _ _ _, (_, vs) => vs
  | .mk _ _ _ :: pre, (v, vs) => (v, withoutField pre vs)

/-- A value of one of the later variants, as value of the enum. -/
def laterVariant {vs : List RVariant} :
    (before : List RVariant) → VariantsCarrier vs → VariantsCarrier (before ++ vs)
  | [], v => v
  | .mk _ _ _ :: before, v => .inr (laterVariant before v)

/-! ## Headers of types -/

mutual
/-- `Describes T h`: the header `h` has the structure of the type `T`. -/
inductive Describes : RTy → Header → Prop where
  | unit : Describes .unit .unit
  | option (T : RTy) (h : Header) : Describes T h → Describes (.option T) (.optional h)
  | bool : Describes .bool .boolean
  | u8 : Describes .u8 .uint8
  | u16 : Describes .u16 .uint16
  | u32 : Describes .u32 .uint32
  | u64 : Describes .u64 .uint64
  | i8 : Describes .i8 .int8
  | i16 : Describes .i16 .int16
  | i32 : Describes .i32 .int32
  | i64 : Describes .i64 .int64
  | f32 : Describes .f32 .float32
  | f64 : Describes .f64 .float64
  | bigUint : Describes .bigUint .bigUInt
  | numBigUint : Describes .numBigUint .bigUInt
  | bigInt : Describes .bigInt .bigInt
  | numBigInt : Describes .numBigInt .bigInt
  | bigDecimal : Describes .bigDecimal .bigDecimal
  | numBigDecimal : Describes .numBigDecimal .bigDecimal
  | str : Describes .str .string
  | string : Describes .string .string
  | bytes : Describes .bytes .binary
  | byteBuf : Describes .byteBuf .binary
  | vec (T : RTy) (h : Header) : Describes T h → Describes (.vec T) (.array h)
  | date : Describes .date .date
  | timeDate : Describes .timeDate .date
  | dateTime : Describes .dateTime .dateTime
  | offsetDateTime : Describes .offsetDateTime .dateTime
  | btreeMap (T : RTy) (h : Header) : Describes T h → Describes (.btreeMap T) (.map h)
  | hashMap (T : RTy) (h : Header) : Describes T h → Describes (.hashMap T) (.map h)
  | tuple (Ts : List RTy) (hs : List Header) : 1 ≤ Ts.length → Ts.length ≤ 16 →
      DescribesAll Ts hs → Describes (.tuple Ts) (.tuple hs)
  /-- A struct is the tuple of its serialized fields. -/
  | struct (name : String) (fields : RFields) (hs : List Header) :
      (∀ f ∈ declared fields, ¬ Conditional (fieldAttrs f)) →
      DescribesAll (serializedTypes (declared fields)) hs →
      Describes (.struct name fields) (.tuple hs)
  /-- An enum lists its variants that are not skipped. -/
  | enum (name : String) (variants : List RVariant) (hs : List Header) :
      (∀ v ∈ variants, ¬ Conditional (variantAttrs v)) →
      DescribesPayloads ((variants.filter fun v => ¬ Skipped (variantAttrs v)).map
        fun v => (variantFields v).map fieldType) hs →
      Describes (.enum name variants) (.enum hs)
/-- Member by member. -/
inductive DescribesAll : List RTy → List Header → Prop where
  | nil : DescribesAll [] []
  | cons (T : RTy) (Ts : List RTy) (h : Header) (hs : List Header) : Describes T h →
      DescribesAll Ts hs → DescribesAll (T :: Ts) (h :: hs)
/-- The payload of a variant with fields of these types: nothing, the single
field, or the tuple of the fields. -/
inductive DescribesPayload : List RTy → Header → Prop where
  | none : DescribesPayload [] .unit
  | one (T : RTy) (h : Header) : Describes T h → DescribesPayload [T] h
  | many (Ts : List RTy) (hs : List Header) : 2 ≤ Ts.length → DescribesAll Ts hs →
      DescribesPayload Ts (.tuple hs)
/-- Variant by variant. -/
inductive DescribesPayloads : List (List RTy) → List Header → Prop where
  | nil : DescribesPayloads [] []
  | cons (Ts : List RTy) (Tss : List (List RTy)) (h : Header) (hs : List Header) :
      DescribesPayload Ts h → DescribesPayloads Tss hs →
      DescribesPayloads (Ts :: Tss) (h :: hs)
end

/-! ## Bodies of values -/

/-- Two lists of the same length, related element by element. -/
def Pointwise {α β : Type} (R : α → β → Prop) : List α → List β → Prop
  | [], [] => True
  | x :: xs, y :: ys => R x y ∧ Pointwise R xs ys
  | _, _ => False

mutual
/-- `Mirrors T v b`: the body `b` is the dynamic view of the value `v : T`. -/
def Mirrors : (T : RTy) → Carrier T → Body → Prop
  | .unit, _, b => b = .unit
  | .option _, none, b => b = .none
  | .option T, some v, b => ∃ c, b = .some c ∧ Mirrors T v c
  | .bool, v, b => b = .boolean v
  | .u8, v, b => b = .uint8 v
  | .u16, v, b => b = .uint16 v
  | .u32, v, b => b = .uint32 v
  | .u64, v, b => b = .uint64 v
  | .i8, v, b => b = .int8 v
  | .i16, v, b => b = .int16 v
  | .i32, v, b => b = .int32 v
  | .i64, v, b => b = .int64 v
  | .f32, v, b => b = .float32 v
  | .f64, v, b => b = .float64 v
  | .bigUint, v, b => b = .bigUInt v
  | .numBigUint, n, b => ∃ c, b = .bigUInt c ∧ ShortestUnsigned n c.bytes
  | .bigInt, v, b => b = .bigInt v
  | .numBigInt, x, b => ∃ c, b = .bigInt c ∧ ShortestSigned x c.bytes
  -- a scale without digits is lost (property C48)
  | .bigDecimal, v, b => b = .bigDecimal (if v.signedBytes = [] then ⟨[], 0⟩ else v)
  | .numBigDecimal, v, b => ∃ c, b = .bigDecimal c ∧
      SameNumber v ⟨signedValue c.signedBytes, c.scale⟩
  | .str, s, b => b = .string s
  | .string, s, b => b = .string s
  | .bytes, bs, b => b = .binary bs
  | .byteBuf, bs, b => b = .binary bs
  | .vec T, vs, b => ∃ cs, b = .array cs ∧ Pointwise (Mirrors T) vs cs
  | .date, d, b => b = .date d
  | .timeDate, d, b => b = .date ⟨d.year, d.ordinal⟩
  | .dateTime, d, b => b = .dateTime d
  | .offsetDateTime, d, b => ∃ c, b = .dateTime c ∧ c.unixTimestamp.toInt = d.seconds ∧
      c.nanosecond.toNat = d.nanos
  | .btreeMap T, es, b => ∃ cs, b = .map cs ∧ Ascending cs ∧
      Pointwise (fun e c => e.1 = c.1 ∧ Mirrors T e.2 c.2) es cs
  -- the same entries, in key order
  | .hashMap T, es, b => ∃ cs cs', b = .map cs ∧ Ascending cs ∧ cs.Perm cs' ∧
      Pointwise (fun e c => e.1 = c.1 ∧ Mirrors T e.2 c.2) es cs'
  | .tuple Ts, vs, b => ∃ cs, b = .tuple cs ∧ TupleMirrors Ts vs cs
  | .struct _ (.named fs), vs, b => ∃ cs, b = .tuple cs ∧ FieldsMirror fs vs cs
  | .struct _ (.unnamed fs), vs, b => ∃ cs, b = .tuple cs ∧ FieldsMirror fs vs cs
  | .struct _ .unit, _, b => b = .tuple []
  | .enum _ vs, v, b => VariantMirrors 0 vs v b
  | .foreign, _, _ => False
/-- Member by member. -/
def TupleMirrors : (Ts : List RTy) → TupleCarrier Ts → List Body → Prop
  | [], _, cs => cs = []
  | T :: Ts, (v, vs), cs => ∃ c cs', cs = c :: cs' ∧ Mirrors T v c ∧ TupleMirrors Ts vs cs'
/-- Field by field, without the skipped ones. -/
def FieldsMirror : (fs : List RField) → FieldCarrier fs → List Body → Prop
  | [], _, cs => cs = []
  | .mk attrs _ T :: fs, (v, vs), cs =>
    if Skipped attrs then FieldsMirror fs vs cs
    else ∃ c cs', cs = c :: cs' ∧ Mirrors T v c ∧ FieldsMirror fs vs cs'
/-- The variant with its position among all variants, the first of which has
position `i`, and its payload. -/
def VariantMirrors (i : Nat) : (vs : List RVariant) → VariantsCarrier vs → Body → Prop
  | .mk _ _ fields :: _, .inl v, b => ∃ k c, b = .enum k c ∧ k.toNat = i ∧ (match fields, v with
      | .named fs, v => PayloadMirrors fs v c
      | .unnamed fs, v => PayloadMirrors fs v c
      | .unit, _ => c = .unit)
  | .mk _ _ _ :: vs, .inr v, b => VariantMirrors (i + 1) vs v b
/-- The payload: nothing, the single field, or the tuple of the fields. -/
def PayloadMirrors : (fs : List RField) → FieldCarrier fs → Body → Prop
  | [], _, c => c = .unit
  | [.mk _ _ T], (v, _), c => Mirrors T v c
  | f :: g :: fs, vs, c => ∃ cs, c = .tuple cs ∧ FieldsMirror (f :: g :: fs) vs cs
end

/-! ## Parts of types and values -/

mutual
/-- A type and the types of everything serialized inside it. -/
def typeParts : RTy → List RTy
  | .option T => .option T :: typeParts T
  | .vec T => .vec T :: typeParts T
  | .btreeMap T => .btreeMap T :: typeParts T
  | .hashMap T => .hashMap T :: typeParts T
  | .tuple Ts => .tuple Ts :: typePartsAll Ts
  | .struct name (.named fs) => .struct name (.named fs) :: typePartsFields fs
  | .struct name (.unnamed fs) => .struct name (.unnamed fs) :: typePartsFields fs
  | .struct name .unit => [.struct name .unit]
  | .enum name vs => .enum name vs :: typePartsVariants vs
  | T => [T]
/-- Of all members. -/
def typePartsAll : List RTy → List RTy
  | [] => []
  | T :: Ts => typeParts T ++ typePartsAll Ts
/-- Of the serialized fields. -/
def typePartsFields : List RField → List RTy
  | [] => []
  | .mk attrs _ T :: fs => (if Skipped attrs then [] else typeParts T) ++ typePartsFields fs
/-- Of all variants. -/
def typePartsVariants : List RVariant → List RTy
  | [] => []
  | .mk _ _ (.named fs) :: vs => typePartsFields fs ++ typePartsVariants vs
  | .mk _ _ (.unnamed fs) :: vs => typePartsFields fs ++ typePartsVariants vs
  | .mk _ _ .unit :: vs => typePartsVariants vs
end

mutual
/-- A value and everything serialized inside it, with the types. -/
def valueParts : (T : RTy) → Carrier T → List (Σ T, Carrier T)
  | .option T, none => [⟨.option T, none⟩]
  | .option T, some v => ⟨.option T, some v⟩ :: valueParts T v
  | .vec T, vs => ⟨.vec T, vs⟩ :: (vs.map fun v => valueParts T v).flatten
  | .btreeMap T, es => ⟨.btreeMap T, es⟩ :: (es.map fun e => valueParts T e.2).flatten
  | .hashMap T, es => ⟨.hashMap T, es⟩ :: (es.map fun e => valueParts T e.2).flatten
  | .tuple Ts, vs => ⟨.tuple Ts, vs⟩ :: valuePartsAll Ts vs
  | .struct name (.named fs), vs => ⟨.struct name (.named fs), vs⟩ :: valuePartsFields fs vs
  | .struct name (.unnamed fs), vs => ⟨.struct name (.unnamed fs), vs⟩ :: valuePartsFields fs vs
  | .enum name vs, v => ⟨.enum name vs, v⟩ :: valuePartsVariant vs v
  | T, v => [⟨T, v⟩]
/-- Of all members. -/
def valuePartsAll : (Ts : List RTy) → TupleCarrier Ts → List (Σ T, Carrier T)
  | [], _ => []
  | T :: Ts, (v, vs) => valueParts T v ++ valuePartsAll Ts vs
/-- Of the serialized fields. -/
def valuePartsFields : (fs : List RField) → FieldCarrier fs → List (Σ T, Carrier T)
  | [], _ => []
  | .mk attrs _ T :: fs, (v, vs) =>
    (if Skipped attrs then [] else valueParts T v) ++ valuePartsFields fs vs
/-- Of the variant the value has. -/
def valuePartsVariant : (vs : List RVariant) → VariantsCarrier vs → List (Σ T, Carrier T)
  | .mk _ _ (.named fs) :: _, .inl v => valuePartsFields fs v
  | .mk _ _ (.unnamed fs) :: _, .inl v => valuePartsFields fs v
  | .mk _ _ .unit :: _, .inl _ => []
  | .mk _ _ _ :: vs, .inr v => valuePartsVariant vs v
end

/-- The position of the variant a value has, among all variants. -/
def variantPosition : (vs : List RVariant) → VariantsCarrier vs → Nat
  | .mk _ _ _ :: _, .inl _ => 0
  | .mk _ _ _ :: vs, .inr v => variantPosition vs v + 1

/-- The number of variants that are not skipped. -/
def keptCount (vs : List RVariant) : Nat := (vs.filter fun v => ¬ Skipped (variantAttrs v)).length

/-! ## Conditions, each about all parts -/

/-- One type comes with its own header: not a user-defined struct, enum or
union, not a type without header, and tuples of 1 to 16 members. -/
def BuiltInPart : RTy → Prop
  | .struct _ _ => False
  | .enum _ _ => False
  | .union _ => False
  | .foreign => False
  | .tuple Ts => 1 ≤ Ts.length ∧ Ts.length ≤ 16
  | _ => True

/-- A type built from the types with a header of their own. -/
def BuiltIn (T : RTy) : Prop := ∀ U ∈ typeParts T, BuiltInPart U

/-- One type is free of the attributes that separate header and body: skipped
variants, skipped or conditional fields inside variants, and a skipped field of a
newtype struct. -/
def PlainPart : RTy → Prop
  | .enum _ vs => ∀ v ∈ vs, ¬ Skipped (variantAttrs v) ∧
      ∀ f ∈ variantFields v, ¬ Skipped (fieldAttrs f) ∧ ¬ Conditional (fieldAttrs f)
  | .struct _ (.unnamed [f]) => ¬ Skipped (fieldAttrs f)
  | _ => True

/-- The type and all types inside it are free of these attributes. -/
def Plain (T : RTy) : Prop := ∀ U ∈ typeParts T, PlainPart U

/-- No `HashMap` in the type. -/
def NoHashMap (T : RTy) : Prop := ∀ U, .hashMap U ∉ typeParts T

/-- What the Rust types guarantee of one value on the target: lengths are below
the size of the address space, the keys of maps are distinct and those of a
`BTreeMap` ascend, dates and timestamps are valid; and what property C45 asks of
decimals. -/
def RealPart (t : Target) : (Σ T, Carrier T) → Prop
  | ⟨.bigUint, v⟩ => v.bytes.length < 2 ^ t.ptr.bits
  | ⟨.numBigUint, n⟩ => ∃ bs, ShortestUnsigned n bs ∧ bs.length < 2 ^ t.ptr.bits
  | ⟨.bigInt, v⟩ => v.bytes.length < 2 ^ t.ptr.bits
  | ⟨.numBigInt, x⟩ => ∃ bs, ShortestSigned x bs ∧ bs.length < 2 ^ t.ptr.bits
  | ⟨.bigDecimal, v⟩ => v.signedBytes.length < 2 ^ t.ptr.bits
  | ⟨.numBigDecimal, v⟩ => (∃ bs, ShortestSigned v.intVal bs ∧ bs.length < 2 ^ t.ptr.bits) ∧
      ScaleFits v
  | ⟨.str, s⟩ => (utf8 s).length < 2 ^ t.ptr.bits
  | ⟨.string, s⟩ => (utf8 s).length < 2 ^ t.ptr.bits
  | ⟨.bytes, bs⟩ => bs.length < 2 ^ t.ptr.bits
  | ⟨.byteBuf, bs⟩ => bs.length < 2 ^ t.ptr.bits
  | ⟨.vec _, vs⟩ => vs.length < 2 ^ t.ptr.bits
  | ⟨.timeDate, d⟩ => d.Valid
  | ⟨.offsetDateTime, d⟩ => d.Valid
  | ⟨.btreeMap _, es⟩ => es.length < 2 ^ t.ptr.bits ∧
      (∀ e ∈ es, (utf8 e.1).length < 2 ^ t.ptr.bits) ∧
      es.Pairwise fun x y => utf8 x.1 < utf8 y.1
  | ⟨.hashMap _, es⟩ => es.length < 2 ^ t.ptr.bits ∧
      (∀ e ∈ es, (utf8 e.1).length < 2 ^ t.ptr.bits) ∧
      es.Pairwise fun x y => x.1 ≠ y.1
  | _ => True

/-- The value exists on the target. -/
def Real (t : Target) (T : RTy) (v : Carrier T) : Prop := ∀ p ∈ valueParts T v, RealPart t p

/-- In builds with overflow checks, the `dlhn::Date`s in the value can be rebased. -/
def DatesRebase (mode : BuildMode) (T : RTy) (v : Carrier T) : Prop :=
  mode = .debug → ∀ d : Date, ⟨.date, d⟩ ∈ valueParts T v → DateFits d

/-- The memory for the body is granted: for the tuples of the header and for the
vectors of the value. -/
def MemoryFits (t : Target) (size : Nat) (h : Header) (T : RTy) (v : Carrier T) : Prop :=
  (∀ hs, .tuple hs ∈ headerParts h → t.allocate (hs.length * size) = none) ∧
  ∀ (U : RTy) (vs : List (Carrier U)), ⟨.vec U, vs⟩ ∈ valueParts T v →
    t.allocate (vs.length * size) = none

/-! ## Dates, times and decimals that every reader accepts -/

/-- The timestamp is in the supported range, before and after adding the
nanoseconds. -/
def InRange (d : DateTime) : Prop := firstSecond ≤ d.unixTimestamp.toInt ∧
  d.unixTimestamp.toInt * 1000000000 + d.nanosecond.toNat < (lastSecond + 1) * 1000000000

/-- The days in the body are in the calendar and its timestamps in range. -/
def TimesExist (b : Body) : Prop :=
  (∀ d, .date d ∈ parts b → ExistingDay d.year.toInt d.ordinal.toNat) ∧
  ∀ d, .dateTime d ∈ parts b → InRange d

/-- No decimal in the body stores digits that denote zero (see property C65). -/
def DigitsDenote (b : Body) : Prop :=
  ∀ v, .bigDecimal v ∈ parts b → v.signedBytes ≠ [] → signedValue v.signedBytes ≠ 0

/-- The `dlhn::Date`s in the value are in the calendar, and its `dlhn::DateTime`s and
the UTC instants of its `time::OffsetDateTime`s in range. -/
def TimesExistIn (T : RTy) (v : Carrier T) : Prop :=
  (∀ d : Date, ⟨.date, d⟩ ∈ valueParts T v → ExistingDay d.year.toInt d.ordinal.toNat) ∧
  (∀ d : DateTime, ⟨.dateTime, d⟩ ∈ valueParts T v → InRange d) ∧
  ∀ d : Time.OffsetDateTime, ⟨.offsetDateTime, d⟩ ∈ valueParts T v → UtcInRange d

/-- No `dlhn::BigDecimal` in the value stores digits that denote zero. -/
def DigitsDenoteIn (T : RTy) (v : Carrier T) : Prop :=
  ∀ x : BigDecimal, ⟨.bigDecimal, x⟩ ∈ valueParts T v → x.signedBytes ≠ [] →
    signedValue x.signedBytes ≠ 0

end Dlhn.Spec
