import Verif.Model.Body
/-!
# Rust types: `SerializeHeader`, the derive macro, and what serde derives

`RTy` are the Rust types that have an impl of `SerializeHeader`, built in
(dlhn/src/header/ser.rs:13-253) or derived (dlhn_derive/src/lib.rs), and
`RTy.Carrier T` are the values of such a type. `serializeHeader` transcribes the
impls and the macro; `ser` is serializing a value with serde. The code that
`#[derive(Serialize)]` generates is not part of /repo; it is described here as
far as needed and belongs to the trusted base.

Recursive types are not modelled: an `RTy` is a finite tree.
-/
namespace Dlhn

/-- An attribute `#[path(item, ..)]` of a field or variant: the path if it is a
single identifier, and the identifiers of the items if there is a list (`none`
for an item that is a literal or a longer path). An item may have a value
(`with = ".."`), which nothing here looks at. -/
structure Attr where
  path : Option String
  items : Option (List (Option String))
  deriving DecidableEq, Repr

mutual
/-- A type with an impl of `SerializeHeader`. -/
inductive RTy where
  | unit
  | option (T : RTy)
  | bool
  | u8
  | u16
  | u32
  | u64
  | i8
  | i16
  | i32
  | i64
  | f32
  | f64
  /-- `dlhn::BigUint` -/
  | bigUint
  /-- `num_bigint::BigUint` with `#[serde(with = "dlhn::format::big_uint")]` -/
  | numBigUint
  /-- `dlhn::BigInt` -/
  | bigInt
  /-- `num_bigint::BigInt` with `#[serde(with = "dlhn::format::big_int")]` -/
  | numBigInt
  /-- `dlhn::BigDecimal` -/
  | bigDecimal
  /-- `bigdecimal::BigDecimal` with `#[serde(with = "dlhn::format::big_decimal")]` -/
  | numBigDecimal
  /-- `&str` -/
  | str
  | string
  /-- `serde_bytes::Bytes` -/
  | bytes
  /-- `serde_bytes::ByteBuf` -/
  | byteBuf
  | vec (T : RTy)
  /-- `dlhn::Date` -/
  | date
  /-- `time::Date` with `#[serde(with = "dlhn::format::date")]` -/
  | timeDate
  /-- `dlhn::DateTime` -/
  | dateTime
  /-- `time::OffsetDateTime` with `#[serde(with = "dlhn::format::date_time")]` -/
  | offsetDateTime
  /-- `BTreeMap<String, T>` -/
  | btreeMap (T : RTy)
  /-- `HashMap<String, T>` -/
  | hashMap (T : RTy)
  /-- `(A, B, ..)` -/
  | tuple (Ts : List RTy)
  /-- a struct with `#[derive(Serialize, SerializeHeader)]` -/
  | struct (name : String) (fields : RFields)
  /-- an enum with `#[derive(Serialize, SerializeHeader)]` -/
  | enum (name : String) (variants : List RVariant)
  /-- A union; it can only be a derive input. -/
  | union (name : String)
  /-- Any other serializable type, without `SerializeHeader` (`char`, `u128`,
  arrays, ...). It can only be the type of a skipped field. -/
  | foreign
/-- `syn::Field`. -/
inductive RField where
  | mk (attrs : List Attr) (name : String) (ty : RTy)
/-- `syn::Fields`. -/
inductive RFields where
  | named (fields : List RField)
  | unnamed (fields : List RField)
  | unit
/-- `syn::Variant`. -/
inductive RVariant where
  | mk (attrs : List Attr) (name : String) (fields : RFields)
end

namespace Derive

/-! ## Values -/

mutual
/-- The values of a type. A map is the list of its entries in iteration order; a
`union` has no values here. -/
@[reducible] def Carrier : RTy → Type
  | .unit => Unit
  | .option T => Option (Carrier T)
  | .bool => Bool
  | .u8 => UInt8
  | .u16 => UInt16
  | .u32 => UInt32
  | .u64 => UInt64
  | .i8 => Int8
  | .i16 => Int16
  | .i32 => Int32
  | .i64 => Int64
  | .f32 => UInt32
  | .f64 => UInt64
  | .bigUint => BigUint
  | .numBigUint => Nat
  | .bigInt => BigInt
  | .numBigInt => Int
  | .bigDecimal => BigDecimal
  | .numBigDecimal => Num.Decimal
  | .str => String
  | .string => String
  | .bytes => List UInt8
  | .byteBuf => List UInt8
  | .vec T => List (Carrier T)
  | .date => Date
  | .timeDate => Time.Date
  | .dateTime => DateTime
  | .offsetDateTime => Time.OffsetDateTime
  | .btreeMap T => List (String × Carrier T)
  | .hashMap T => List (String × Carrier T)
  | .tuple Ts => TupleCarrier Ts
  | .struct _ fs => FieldsCarrier fs
  | .enum _ vs => VariantsCarrier vs
  | .union _ => Empty
  | .foreign => Val
/-- One component per member. -/
@[reducible] def TupleCarrier : List RTy → Type
  | [] => Unit
  | T :: Ts => Carrier T × TupleCarrier Ts
/-- One component per field, skipped or not. -/
@[reducible] def FieldCarrier : List RField → Type
  | [] => Unit
  | .mk _ _ T :: fs => Carrier T × FieldCarrier fs
/-- The fields of a struct or variant. -/
@[reducible] def FieldsCarrier : RFields → Type
  | .named fs => FieldCarrier fs
  | .unnamed fs => FieldCarrier fs
  | .unit => Unit
/-- One of the variants, with its fields. -/
@[reducible] def VariantsCarrier : List RVariant → Type
  | [] => Empty
  | .mk _ _ fs :: vs => FieldsCarrier fs ⊕ VariantsCarrier vs
end

/-! ## The macro -/

/-- dlhn_derive/src/lib.rs:12. -/
def TUPLE_CODE : UInt8 := 21
/-- dlhn_derive/src/lib.rs:14. -/
def ENUM_CODE : UInt8 := 24

/-- `is_skip_field`, dlhn_derive/src/lib.rs:190-205. -/
def isSkipField (attrs : List Attr) : Bool :=
  attrs.any fun a => a.path == some "serde" && match a.items with
    | some items => items.any fun i => i == some "skip" || i == some "skip_serializing"
    | none => false

/-- `has_skip_serializing_if`, dlhn_derive/src/lib.rs:207-221. -/
def hasSkipSerializingIf (attrs : List Attr) : Bool :=
  attrs.any fun a => a.path == some "serde" && match a.items with
    | some items => items.any fun i => i == some "skip_serializing_if"
    | none => false

/-- `(n as u16).encode_prefix_varint_vec()`, dlhn_derive/src/lib.rs:44-48, 106-109,
154-158; dlhn_derive/src/prefix_varint.rs is a copy of dlhn/src/prefix_varint.rs. -/
def countBytes (n : Nat) : List UInt8 :=
  PrefixVarint.slice (PrefixVarint.encodeU16 (UInt16.ofNat n) (Vector.replicate 3 0))

/-- `writer.write_all(bs)?`. -/
def put (bs : List UInt8) : WProg IoErr := .writeAll bs id .skip

/-- The fields inside `syn::Fields`. -/
def _root_.Dlhn.RFields.list : RFields → List RField
  | .named fs => fs
  | .unnamed fs => fs
  | .unit => []

/-- Why there is no impl: a compile error. -/
inductive CompileError where
  /-- dlhn_derive/src/lib.rs:31-36, 75-80. -/
  | skipSerializingIf
  /-- dlhn_derive/src/lib.rs:184-186. -/
  | union
  /-- The trait is not implemented for a type. -/
  | noImpl
  deriving DecidableEq, Repr

mutual
/-- `T::serialize_header(writer)`: the impls of dlhn/src/header/ser.rs:13-253 and
the derived ones, dlhn_derive/src/lib.rs:21-188. `Except.error` is a compile
error. -/
def serializeHeader : RTy → Except CompileError (WProg IoErr)
  | .unit => .ok (put [Header.UNIT_CODE])
  | .option T => do pure ((put [Header.OPTIONAL_CODE]).andThen (← serializeHeader T))
  | .bool => .ok (put [Header.BOOLEAN_CODE])
  | .u8 => .ok (put [Header.UINT8_CODE])
  | .u16 => .ok (put [Header.UINT16_CODE])
  | .u32 => .ok (put [Header.UINT32_CODE])
  | .u64 => .ok (put [Header.UINT64_CODE])
  | .i8 => .ok (put [Header.INT8_CODE])
  | .i16 => .ok (put [Header.INT16_CODE])
  | .i32 => .ok (put [Header.INT32_CODE])
  | .i64 => .ok (put [Header.INT64_CODE])
  | .f32 => .ok (put [Header.FLOAT32_CODE])
  | .f64 => .ok (put [Header.FLOAT64_CODE])
  | .bigUint => .ok (put [Header.BIG_UINT_CODE])
  | .numBigUint => .ok (put [Header.BIG_UINT_CODE])
  | .bigInt => .ok (put [Header.BIG_INT_CODE])
  | .numBigInt => .ok (put [Header.BIG_INT_CODE])
  | .bigDecimal => .ok (put [Header.BIG_DECIMAL_CODE])
  | .numBigDecimal => .ok (put [Header.BIG_DECIMAL_CODE])
  | .str => .ok (put [Header.STRING_CODE])
  | .string => .ok (put [Header.STRING_CODE])
  | .bytes => .ok (put [Header.BINARY_CODE])
  | .byteBuf => .ok (put [Header.BINARY_CODE])
  | .vec T => do pure ((put [Header.ARRAY_CODE]).andThen (← serializeHeader T))
  | .date => .ok (put [Header.DATE_CODE])
  | .timeDate => .ok (put [Header.DATE_CODE])
  | .dateTime => .ok (put [Header.DATETIME_CODE])
  | .offsetDateTime => .ok (put [Header.DATETIME_CODE])
  | .btreeMap T => do pure ((put [Header.MAP_CODE]).andThen (← serializeHeader T))
  | .hashMap T => do pure ((put [Header.MAP_CODE]).andThen (← serializeHeader T))
  -- `tuple_impls!`, dlhn/src/header/ser.rs:214-253: one to sixteen members
  | .tuple Ts =>
    if 1 ≤ Ts.length ∧ Ts.length ≤ 16 then do
      let ps ← serializeHeaders Ts
      pure ((put [Header.TUPLE_CODE]).andThen ((put (countBytes Ts.length)).andThen ps))
    else .error .noImpl
  -- dlhn_derive/src/lib.rs:27-69
  | .struct _ fields => do
    let (types, ps) ← structFields fields
    pure ((put (TUPLE_CODE :: countBytes types)).andThen ps)
  -- dlhn_derive/src/lib.rs:70-183
  | .enum _ variants => do
    let (outers, ps) ← enumVariants variants
    pure ((put (ENUM_CODE :: countBytes outers)).andThen ps)
  | .union _ => .error .union
  | .foreign => .error .noImpl
/-- `$( $name::serialize_header(writer)?; )+`. -/
def serializeHeaders : List RTy → Except CompileError (WProg IoErr)
  | [] => pure .skip
  | T :: Ts => do
    let p ← serializeHeader T
    let ps ← serializeHeaders Ts
    pure (p.andThen ps)
/-- `data.fields.iter()`: no field for a unit struct, dlhn_derive/src/lib.rs:30. -/
def structFields : RFields → Except CompileError (Nat × WProg IoErr)
  | .named fs => structTypes fs
  | .unnamed fs => structTypes fs
  | .unit => pure (0, .skip)
/-- The field loop of a struct, dlhn_derive/src/lib.rs:28-42: the number of
`types` and the calls made for them. -/
def structTypes : List RField → Except CompileError (Nat × WProg IoErr)
  | [] => pure (0, .skip)
  | .mk attrs _ T :: fs =>
    if hasSkipSerializingIf attrs then .error .skipSerializingIf
    else if isSkipField attrs then structTypes fs
    else do
      let p ← serializeHeader T
      let (n, ps) ← structTypes fs
      pure (n + 1, p.andThen ps)
/-- The variant loop of an enum, dlhn_derive/src/lib.rs:74-152: the number of
`outers` and, for each, `write_all(&outer)` and the calls for its `inners`. -/
def enumVariants : List RVariant → Except CompileError (Nat × WProg IoErr)
  | [] => pure (0, .skip)
  | .mk attrs _ fields :: vs =>
    if hasSkipSerializingIf attrs then .error .skipSerializingIf
    else if isSkipField attrs then enumVariants vs
    else do
      let p ← variantFields fields
      let (n, ps) ← enumVariants vs
      pure (n + 1, p.andThen ps)
/-- `match &variant.fields`, dlhn_derive/src/lib.rs:83-151. -/
def variantFields : RFields → Except CompileError (WProg IoErr)
  | .named fs => variantTypes fs
  | .unnamed fs => variantTypes fs
  -- `inners.push(vec![()])`
  | .unit => pure ((put []).andThen (put [Header.UNIT_CODE]))
/-- One variant, dlhn_derive/src/lib.rs:83-151. The attributes of its fields are
not looked at. -/
def variantTypes : List RField → Except CompileError (WProg IoErr)
  | [] => pure ((put []).andThen (put [Header.UNIT_CODE]))
  | [f] => do pure ((put []).andThen (← fieldTypes [f]))
  | f :: g :: fs => do
    pure ((put (TUPLE_CODE :: countBytes (f :: g :: fs).length)).andThen (← fieldTypes (f :: g :: fs)))
/-- The `inners` of one variant. -/
def fieldTypes : List RField → Except CompileError (WProg IoErr)
  | [] => pure .skip
  | .mk _ _ T :: fs => do
    let p ← serializeHeader T
    let ps ← fieldTypes fs
    pure (p.andThen ps)
end

/-! ## `#[derive(Serialize)]` -/

/-- Whether serde_derive leaves a field or variant out when serializing:
`#[serde(skip)]` or `#[serde(skip_serializing)]`. -/
def serdeSkips (attrs : List Attr) : Bool :=
  attrs.any fun a => a.path == some "serde" &&
    (a.items.getD []).any fun i => i == some "skip" || i == some "skip_serializing"

/-- Elements in order, dlhn/src/ser.rs:268-283. -/
def serSeq {α : Type} (f : α → WProg SerErr) : List α → WProg SerErr
  | [] => .skip
  | v :: vs => (f v).andThen (serSeq f vs)
/-- Entries in order, dlhn/src/ser.rs:336-358. -/
def serMap {α : Type} (f : α → WProg SerErr) : List (String × α) → WProg SerErr
  | [] => .skip
  | (k, v) :: es => (Ser.serStr k).andThen ((f v).andThen (serMap f es))

mutual
/-- `value.serialize(&mut Serializer)`. The calls made by derived impls are those
of serde_derive (externally tagged enums); fields with `skip_serializing_if` are
serialized unconditionally here. -/
def ser (mode : BuildMode) : (T : RTy) → Carrier T → WProg SerErr
  | .unit, _ => .skip
  | .option _, none => Ser.emit [0]
  | .option T, some v => (Ser.emit [1]).andThen (ser mode T v)
  | .bool, v => Ser.serBool v
  | .u8, v => Ser.serU8 v
  | .u16, v => Ser.serU16 v
  | .u32, v => Ser.serU32 v
  | .u64, v => Ser.serU64 v
  | .i8, v => Ser.serI8 v
  | .i16, v => Ser.serI16 v
  | .i32, v => Ser.serI32 v
  | .i64, v => Ser.serI64 v
  | .f32, v => Ser.serF32 v
  | .f64, v => Ser.serF64 v
  | .bigUint, v => BigUint.ser v
  | .numBigUint, v => Format.serBigUint v
  | .bigInt, v => BigInt.ser v
  | .numBigInt, v => Format.serBigInt v
  | .bigDecimal, v => BigDecimal.ser v
  | .numBigDecimal, v => Format.serBigDecimal mode v
  | .str, v => Ser.serStr v
  | .string, v => Ser.serStr v
  | .bytes, v => Ser.serBytes v
  | .byteBuf, v => Ser.serBytes v
  | .vec T, vs => (Ser.serHint (some vs.length)).andThen (serSeq (ser mode T) vs)
  | .date, v => Date.ser mode v
  | .timeDate, v => Format.serDate mode v
  | .dateTime, v => DateTime.ser v
  | .offsetDateTime, v => Format.serDateTime v
  | .btreeMap T, es => (Ser.serHint (some es.length)).andThen (serMap (ser mode T) es)
  | .hashMap T, es => (Ser.serHint (some es.length)).andThen (serMap (ser mode T) es)
  | .tuple Ts, vs => serTuple mode Ts vs
  -- `serialize_struct` / `serialize_tuple_struct` with `serialize_field` for the
  -- fields that are not skipped; `serialize_newtype_struct` for one unnamed
  -- field, whose attributes are not looked at; `serialize_unit_struct`
  | .struct _ (.named fs), vs => serFields mode fs vs
  | .struct _ (.unnamed []), _ => .skip
  | .struct _ (.unnamed [.mk _ _ T]), vs => ser mode T vs.1
  | .struct _ (.unnamed (f :: g :: fs)), vs => serFields mode (f :: g :: fs) vs
  | .struct _ .unit, _ => .skip
  | .enum name vs, v => serVariant mode name 0 vs v
  | .foreign, v => Ser.ser v
/-- Members in order, dlhn/src/ser.rs:285-300. -/
def serTuple (mode : BuildMode) : (Ts : List RTy) → TupleCarrier Ts → WProg SerErr
  | [], _ => .skip
  | T :: Ts, (v, vs) => (ser mode T v).andThen (serTuple mode Ts vs)
/-- Fields in order, without the skipped ones, dlhn/src/ser.rs:302-317, 360-378. -/
def serFields (mode : BuildMode) : (fs : List RField) → FieldCarrier fs → WProg SerErr
  | [], _ => .skip
  | .mk attrs _ T :: fs, (v, vs) =>
    if serdeSkips attrs then serFields mode fs vs
    else (ser mode T v).andThen (serFields mode fs vs)
/-- One variant: the index counts all variants; a skipped variant is an error
("the enum variant .. cannot be serialized"). dlhn/src/ser.rs:171-203, 224-233,
251-260, 319-334, 380-397. -/
def serVariant (mode : BuildMode) (name : String) (i : Nat) :
    (vs : List RVariant) → VariantsCarrier vs → WProg SerErr
  | .mk attrs vn fields :: _, .inl v =>
    if serdeSkips attrs then
      .done (.err (.message ("the enum variant " ++ name ++ "::" ++ vn ++ " cannot be serialized")))
    else (Ser.serU32 (UInt32.ofNat i)).andThen <| match fields, v with
      | .named fs, v => serFields mode fs v
      | .unnamed fs, v => serFields mode fs v
      | .unit, _ => .skip
  | .mk _ _ _ :: vs, .inr v => serVariant mode name (i + 1) vs v
end

end Derive
end Dlhn
