import Verif.Model.DeriveDe
import Verif.Model.Body
/-!
# The unit tests of the repository, run on the model

Every assertion in /repo that compares with literal bytes, lengths or values, stated
about the model and checked by evaluation in the kernel. These are tests of the
model against the code, not properties: they show that the model does what the
authors of the code recorded about it. Assertions of the form "decoding what was
encoded gives it back" are instances of C05, C07, C30, C34 and C35 and not repeated.
-/
namespace Dlhn.Conformance

open PrefixVarint ZigZag Derive

/-! ## dlhn/src/prefix_varint.rs:304-683, dlhn_derive/src/prefix_varint.rs -/

-- encode_u8
example : ([0, 1, 2, 4, 8, 16, 32, 64, 127].map fun v => (encodeU8 v (Vector.replicate 2 0)).2) =
    List.replicate 9 1 := by decide +kernel
example : ([128, 255].map fun v => (encodeU8 v (Vector.replicate 2 0)).2) = [2, 2] := by
  decide +kernel
-- encode_u16
example : ((List.range 7).map fun i => (encodeU16 (1 <<< UInt16.ofNat i) (Vector.replicate 3 0)).2) =
    List.replicate 7 1 := by decide +kernel
example : ((List.range' 7 7).map fun i =>
    (encodeU16 (1 <<< UInt16.ofNat i) (Vector.replicate 3 0)).2) = List.replicate 7 2 := by
  decide +kernel
example : (([0, 127, 16383, 16384, 32768, 65535] : List UInt16).map fun v =>
    (encodeU16 v (Vector.replicate 3 0)).2) = [1, 1, 2, 3, 3, 3] := by decide +kernel
-- encode_u32
example : ((List.range 32).map fun i => (encodeU32 (1 <<< UInt32.ofNat i) (Vector.replicate 5 0)).2) =
    List.replicate 7 1 ++ List.replicate 7 2 ++ List.replicate 7 3 ++ List.replicate 7 4 ++
      List.replicate 4 5 := by decide +kernel
example : (([0, 127, 16383, 2097151, 268435455, 4294967295] : List UInt32).map fun v =>
    (encodeU32 v (Vector.replicate 5 0)).2) = [1, 1, 2, 3, 4, 5] := by decide +kernel
-- encode_u64
example : ((List.range 64).map fun i => (encodeU64 (1 <<< UInt64.ofNat i) (Vector.replicate 9 0)).2) =
    List.replicate 7 1 ++ List.replicate 7 2 ++ List.replicate 7 3 ++ List.replicate 7 4 ++
      List.replicate 7 5 ++ List.replicate 7 6 ++ List.replicate 7 7 ++ List.replicate 7 8 ++
      List.replicate 8 9 := by decide +kernel
example : (([0, 127, 16383, 2097151, 268435455, 34359738367, 4398046511103, 562949953421311,
      72057594037927935, 18446744073709551615] : List UInt64).map fun v =>
    (encodeU64 v (Vector.replicate 9 0)).2) = [1, 1, 2, 3, 4, 5, 6, 7, 8, 9] := by decide +kernel
-- issue_2
example : Prog.run ⟨.w64, 4096⟩ decodeU64 (vecU64 37486878914941) = .ok (37486878914941, []) := by
  decide +kernel

/-! ## dlhn/src/ser.rs:578-1356 -/

/-- The tests' `buf` after serializing a value of a type in a build with overflow
checks. -/
def bytesOf (T : RTy) (v : Carrier T) : List UInt8 × Outcome SerErr Unit :=
  (Derive.ser .debug T v).exec

-- serialize_bool, serialize_i8
example : bytesOf .bool true = ([1], .ok ()) := by decide +kernel
example : bytesOf .bool false = ([0], .ok ()) := by decide +kernel
example : bytesOf .i8 (-128) = ([128], .ok ()) := by decide +kernel
example : bytesOf .i8 0 = ([0], .ok ()) := by decide +kernel
example : bytesOf .i8 127 = ([127], .ok ()) := by decide +kernel
-- serialize_i16, serialize_i32, serialize_i64
example : bytesOf .i16 (-32768) = (vecU16 (encodeI16 (-32768)), .ok ()) := by decide +kernel
example : bytesOf .i16 0 = ([0], .ok ()) := by decide +kernel
example : bytesOf .i16 32767 = (vecU16 (encodeI16 32767), .ok ()) := by decide +kernel
example : bytesOf .i32 (-2147483648) = (vecU32 (encodeI32 (-2147483648)), .ok ()) := by decide +kernel
example : bytesOf .i32 0 = ([0], .ok ()) := by decide +kernel
example : bytesOf .i32 2147483647 = (vecU32 (encodeI32 2147483647), .ok ()) := by decide +kernel
example : bytesOf .i64 (-9223372036854775808) =
    (vecU64 (encodeI64 (-9223372036854775808)), .ok ()) := by decide +kernel
example : bytesOf .i64 0 = ([0], .ok ()) := by decide +kernel
example : bytesOf .i64 9223372036854775807 =
    (vecU64 (encodeI64 9223372036854775807), .ok ()) := by decide +kernel
-- serialize_u8, serialize_u16, serialize_u32, serialize_u64
example : bytesOf .u8 0 = ([0], .ok ()) := by decide +kernel
example : bytesOf .u8 255 = ([255], .ok ()) := by decide +kernel
example : bytesOf .u16 0 = (vecU16 0, .ok ()) := by decide +kernel
example : bytesOf .u16 65535 = (vecU16 65535, .ok ()) := by decide +kernel
example : bytesOf .u32 0 = (vecU32 0, .ok ()) := by decide +kernel
example : bytesOf .u32 4294967295 = (vecU32 4294967295, .ok ()) := by decide +kernel
example : bytesOf .u64 0 = (vecU64 0, .ok ()) := by decide +kernel
example : bytesOf .u64 18446744073709551615 = (vecU64 18446744073709551615, .ok ()) := by
  decide +kernel
-- serialize_f32 (0, 1.1, -1.1, inf, -inf, NaN, -NaN), serialize_f64
example : bytesOf .f32 0 = ([0, 0, 0, 0], .ok ()) := by decide +kernel
example : bytesOf .f32 0x3F8CCCCD = ([0xCD, 0xCC, 0x8C, 0x3F], .ok ()) := by decide +kernel
example : bytesOf .f32 0xBF8CCCCD = ([0xCD, 0xCC, 0x8C, 0xBF], .ok ()) := by decide +kernel
example : bytesOf .f32 0x7F800000 = ([0, 0, 0x80, 0x7F], .ok ()) := by decide +kernel
example : bytesOf .f32 0xFF800000 = ([0, 0, 0x80, 0xFF], .ok ()) := by decide +kernel
example : bytesOf .f32 0x7FC00000 = ([0, 0, 0xC0, 0x7F], .ok ()) := by decide +kernel
example : bytesOf .f32 0xFFC00000 = ([0, 0, 0xC0, 0xFF], .ok ()) := by decide +kernel
example : bytesOf .f64 0 = ([0, 0, 0, 0, 0, 0, 0, 0], .ok ()) := by decide +kernel
example : bytesOf .f64 0x3FF199999999999A =
    ([0x9A, 0x99, 0x99, 0x99, 0x99, 0x99, 0xF1, 0x3F], .ok ()) := by decide +kernel
example : bytesOf .f64 0xBFF199999999999A =
    ([0x9A, 0x99, 0x99, 0x99, 0x99, 0x99, 0xF1, 0xBF], .ok ()) := by decide +kernel
example : bytesOf .f64 0x7FF0000000000000 = ([0, 0, 0, 0, 0, 0, 0xF0, 0x7F], .ok ()) := by
  decide +kernel
example : bytesOf .f64 0xFFF0000000000000 = ([0, 0, 0, 0, 0, 0, 0xF0, 0xFF], .ok ()) := by
  decide +kernel
-- serialize_char, serialize_str
example : Ser.toVec (.char 'a') = ([1, 97], .ok ()) := by decide +kernel
example : Ser.toVec (.char 'あ') = ([3, 227, 129, 130], .ok ()) := by decide +kernel
example : bytesOf .str "" = ([0], .ok ()) := by decide +kernel
example : bytesOf .str "test" = ([4, 116, 101, 115, 116], .ok ()) := by decide +kernel
-- serialize_none, serialize_some, serialize_unit, serialize_unit_struct, serialize_unit_variant
example : bytesOf (.option .bool) none = ([0], .ok ()) := by decide +kernel
example : bytesOf (.option .u8) (some 123) = ([1, 123], .ok ()) := by decide +kernel
example : bytesOf .unit () = ([], .ok ()) := by decide +kernel
example : bytesOf (.struct "Test" .unit) () = ([], .ok ()) := by decide +kernel
example : bytesOf (.enum "Test" [.mk [] "A" .unit]) (.inl ()) = ([0], .ok ()) := by decide +kernel
/-- `struct Inner { c: String, a: bool, b: u8 }` -/
def innerTy : RTy := .struct "Inner" (.named [.mk [] "c" .string, .mk [] "a" .bool, .mk [] "b" .u8])
-- serialize_newtype_struct
example : bytesOf (.struct "Test" (.unnamed [.mk [] "0" innerTy])) (("test", true, 123, ()), ()) =
    ([4, 116, 101, 115, 116, 1, 123], .ok ()) := by decide +kernel
example : bytesOf (.struct "Test" (.named [.mk [] "c" .string, .mk [] "a" .bool,
      .mk [] "b" (.struct "Inner" (.unnamed [.mk [] "0" .u8]))])) ("test", true, (123, ()), ()) =
    ([4, 116, 101, 115, 116, 1, 123], .ok ()) := by decide +kernel
-- serialize_newtype_variant
example : bytesOf (.enum "Test" [.mk [] "A" .unit, .mk [] "B" (.unnamed [.mk [] "0" .string]),
      .mk [] "C" .unit]) (.inr (.inl ("test", ()))) = ([1, 4, 116, 101, 115, 116], .ok ()) := by
  decide +kernel
-- serialize_seq
example : bytesOf (.vec .u8) [] = ([0], .ok ()) := by decide +kernel
example : bytesOf (.vec .u8) [123] = ([1, 123], .ok ()) := by decide +kernel
example : bytesOf (.vec .u8) (List.replicate 128 1) = (vecU64 128 ++ List.replicate 128 1, .ok ()) := by
  decide +kernel
example : bytesOf (.vec .bool) [true, false, true] = ([3, 1, 0, 1], .ok ()) := by decide +kernel
-- serialize_tuple, serialize_tuple_struct, serialize_tuple_variant
example : bytesOf (.tuple [.bool, .u8, .str]) (true, 123, "test", ()) =
    ([1, 123, 4, 116, 101, 115, 116], .ok ()) := by decide +kernel
example : bytesOf (.struct "Test" (.unnamed [.mk [] "0" .bool, .mk [] "1" .u8, .mk [] "2" .string]))
    (true, 123, "test", ()) = ([1, 123, 4, 116, 101, 115, 116], .ok ()) := by decide +kernel
example : bytesOf (.enum "Test" [.mk [] "A" .unit,
      .mk [] "B" (.unnamed [.mk [] "0" .bool, .mk [] "1" .u8, .mk [] "2" .string]),
      .mk [] "C" .unit]) (.inr (.inl (true, 123, "test", ()))) =
    ([1, 1, 123, 4, 116, 101, 115, 116], .ok ()) := by decide +kernel
-- serialize_struct, serialize_struct_variant
example : bytesOf innerTy ("test", true, 123, ()) = ([4, 116, 101, 115, 116, 1, 123], .ok ()) := by
  decide +kernel
example : bytesOf (.enum "Test" [.mk [] "A" .unit,
      .mk [] "B" (.named [.mk [] "a" .bool, .mk [] "b" .u8, .mk [] "c" .string]),
      .mk [] "C" .unit]) (.inr (.inl (true, 123, "test", ()))) =
    ([1, 1, 123, 4, 116, 101, 115, 116], .ok ()) := by decide +kernel
-- serialize_map
example : bytesOf (.btreeMap .u8) [("a", 0), ("b", 123), ("c", 255)] =
    ([3, 1, 97, 0, 1, 98, 123, 1, 99, 255], .ok ()) := by decide +kernel
example : (Ser.toVec (.map (some 3) [(.i32 1, .u8 0), (.i32 2, .u8 123), (.i32 3, .u8 255)])).2 =
    .err .unsupportedKeyType := by decide +kernel
-- serialize_bytes
example : bytesOf .bytes [0, 1, 2, 3, 255] = ([5, 0, 1, 2, 3, 255], .ok ()) := by decide +kernel

/-! ## dlhn/tests/stream.rs and README.md -/

example : ((Derive.ser .debug innerTy ("test", true, 123, ())).andThen
    (Derive.ser .debug innerTy ("test", true, 123, ()))).exec =
    ([4, 116, 101, 115, 116, 1, 123, 4, 116, 101, 115, 116, 1, 123], .ok ()) := by decide +kernel
/-- No defaults are needed. -/
def noDefaults : Env := ⟨fun _ _ => none, id⟩
example : Prog.run ⟨.w64, 4096⟩ (deTy ⟨.w64, 4096⟩ .debug noDefaults innerTy)
      [4, 116, 101, 115, 116, 1, 123, 4, 116, 101, 115, 116, 1, 123] =
    .ok (("test", true, 123, ()), [4, 116, 101, 115, 116, 1, 123]) := by rfl
example : Prog.run ⟨.w64, 4096⟩ (deTy ⟨.w64, 4096⟩ .debug noDefaults innerTy)
      [4, 116, 101, 115, 116, 1, 123] = .ok (("test", true, 123, ()), []) := by rfl
example : Prog.run ⟨.w64, 4096⟩ (deTy ⟨.w64, 4096⟩ .debug noDefaults innerTy) [] = .err .read := by
  rfl
-- README, "Stream version"
example : ((Ser.serBool true).andThen (Ser.serBool false)).exec = ([1, 0], .ok ()) := by decide +kernel
example : Prog.run ⟨.w64, 4096⟩ De.deBool [1, 0] = .ok (true, [0]) := by rfl
example : Prog.run ⟨.w64, 4096⟩ De.deBool [0] = .ok (false, []) := by rfl
example : Prog.run ⟨.w64, 4096⟩ De.deBool [] = .err .read := by rfl

/-! ## dlhn/src/header/ser.rs, dlhn/tests/derive.rs, README.md -/

/-- The bytes `T::serialize_header` writes. -/
def headerOf (T : RTy) : Option (List UInt8) :=
  match serializeHeader T with
  | .ok p => some p.exec.1
  | _ => none

/-- `#[serde(skip)]` or `#[serde(skip_serializing)]`. -/
def serdeAttr (s : String) : Attr := ⟨some "serde", some [some s]⟩

/-- `serializeHeader` is defined by well-founded recursion, which does not reduce: unfold
it by its equations first. -/
local macro "header_bytes" : tactic => `(tactic|
  (simp +decide only [List.map_cons, List.map_nil, headerOf, serdeAttr, serializeHeader,
    serializeHeaders, structFields, structTypes, enumVariants, variantFields, variantTypes,
    fieldTypes, hasSkipSerializingIf, isSkipField, bind, Except.bind, pure, Except.pure,
    List.length_cons, List.length_nil, Nat.reduceAdd, Nat.reduceLeDiff, and_self, if_true,
    if_false, Bool.false_eq_true]
   try decide +kernel))

example : headerOf .unit = some [0] := by
  header_bytes
example : headerOf (.option .unit) = some [1, 0] := by
  header_bytes
example : headerOf .bool = some [2] := by
  header_bytes
example : [RTy.u8, .u16, .u32, .u64].map headerOf = [some [3], some [4], some [5], some [6]] := by
  header_bytes
example : [RTy.i8, .i16, .i32, .i64].map headerOf = [some [8], some [9], some [10], some [11]] := by
  header_bytes
example : [RTy.f32, .f64].map headerOf = [some [13], some [14]] := by
  header_bytes
example : [RTy.bigUint, .numBigUint, .bigInt, .numBigInt, .bigDecimal, .numBigDecimal].map headerOf =
    [some [15], some [15], some [16], some [16], some [17], some [17]] := by
  header_bytes
example : [RTy.str, .string, .bytes, .byteBuf].map headerOf =
    [some [18], some [18], some [19], some [19]] := by
  header_bytes
example : headerOf (.vec .bool) = some [20, 2] := by
  header_bytes
example : headerOf (.tuple [.unit, .option .unit, .bool, .u8]) = some [21, 4, 0, 1, 0, 2, 3] := by
  header_bytes
example : headerOf (.btreeMap .bool) = some [23, 2] := by
  header_bytes
example : headerOf (.hashMap .bool) = some [23, 2] := by
  header_bytes
example : [RTy.date, .timeDate, .dateTime, .offsetDateTime].map headerOf =
    [some [25], some [25], some [26], some [26]] := by
  header_bytes
-- header::serialize_enum
example : Header.toVec (.enum [.boolean, .uint8, .tuple [.boolean, .uint8]]) =
    ([24, 3, 2, 3, 21, 2, 2, 3], .ok ()) := by decide +kernel
-- derive_serialize_header
example : headerOf (.struct "Test" (.named [.mk [] "a" .bool, .mk [] "b" .u8,
    .mk [] "c" (.option .u32)])) = some [21, 3, 2, 3, 1, 5] := by
  header_bytes
example : headerOf (.enum "Test" [.mk [] "A" (.unnamed [.mk [] "0" .bool]), .mk [] "B" .unit,
    .mk [] "C" (.unnamed [.mk [] "0" .u32]),
    .mk [] "D" (.unnamed [.mk [] "0" .bool, .mk [] "1" .u8, .mk [] "2" .u32])]) =
    some [24, 4, 2, 0, 5, 21, 3, 2, 3, 5] := by
  header_bytes
example : headerOf (.enum "Test" [.mk [] "A" (.unnamed [.mk [] "0" .bool]), .mk [] "B" .unit,
    .mk [] "C" (.unnamed [.mk [] "0" .u32]),
    .mk [] "D" (.named [.mk [] "a" .bool, .mk [] "b" .u8, .mk [] "c" .u32])]) =
    some [24, 4, 2, 0, 5, 21, 3, 2, 3, 5] := by
  header_bytes
-- derive_serialize_header_with_skip, derive_serialize_header_with_skip_serializing
example : ["skip", "skip_serializing"].map (fun s => headerOf (.struct "Test" (.named
    [.mk [] "a" .bool, .mk [serdeAttr s] "b" .u8, .mk [] "c" (.option .u32)]))) =
    [some [21, 2, 2, 1, 5], some [21, 2, 2, 1, 5]] := by
  header_bytes
example : ["skip", "skip_serializing"].map (fun s => headerOf (.enum "Test"
    [.mk [] "A" (.unnamed [.mk [] "0" .bool]), .mk [] "B" .unit,
    .mk [serdeAttr s] "C" (.unnamed [.mk [] "0" .u32]),
    .mk [] "D" (.unnamed [.mk [] "0" .bool, .mk [] "1" .u8, .mk [] "2" .u32])])) =
    [some [24, 3, 2, 0, 21, 3, 2, 3, 5], some [24, 3, 2, 0, 21, 3, 2, 3, 5]] := by
  header_bytes
-- deserialize_header
example : Prog.run ⟨.w64, 2 ^ 20⟩ (Header.deserialize 16 8) [21, 3, 0, 2, 3] =
    .ok (.tuple [.unit, .boolean, .uint8], []) := by rfl
example : Prog.run ⟨.w64, 2 ^ 20⟩ (Header.deserialize 16 8) [24, 4, 2, 0, 5, 21, 3, 2, 3, 5] =
    .ok (.enum [.boolean, .unit, .uint32, .tuple [.boolean, .uint8, .uint32]], []) := by rfl
-- README, "Serialize and deserialize header"
example : headerOf (.struct "Test" (.named [.mk [] "a" .bool, .mk [] "b" .u8, .mk [] "c" .string])) =
    some [21, 3, 2, 3, 18] := by
  header_bytes

/-! ## dlhn/src/big_uint.rs, dlhn/src/format/big_uint.rs -/

-- from, into
example : BigUint.ofNum 123 = ⟨[123]⟩ := by decide +kernel
example : (BigUint.ofNum 123).toNum = 123 := by decide +kernel
/-- Both the newtype and the format module write these bytes. -/
def uintBytes (v : Nat) (bs : List UInt8) : Prop :=
  (BigUint.ser (.ofNum v)).exec = (bs, .ok ()) ∧ (Format.serBigUint v).exec = (bs, .ok ())
instance (v : Nat) (bs : List UInt8) : Decidable (uintBytes v bs) := inferInstanceAs (Decidable (_ ∧ _))
example : uintBytes 0 [0] := by decide +kernel
example : uintBytes 255 [1, 255] := by decide +kernel
example : uintBytes 65535 [2, 255, 255] := by decide +kernel
example : uintBytes 65536 [3, 0, 0, 1] := by decide +kernel
example : uintBytes (2 ^ 32 - 1) [4, 255, 255, 255, 255] := by decide +kernel
example : uintBytes (2 ^ 32) [5, 0, 0, 0, 0, 1] := by decide +kernel
example : uintBytes (2 ^ 64 - 1) (8 :: List.replicate 8 255) := by decide +kernel
example : uintBytes (2 ^ 64) (9 :: List.replicate 8 0 ++ [1]) := by decide +kernel
example : uintBytes (2 ^ 128 - 1) (16 :: List.replicate 16 255) := by decide +kernel
example : uintBytes (2 ^ 128) (17 :: List.replicate 16 0 ++ [1]) := by decide +kernel

/-! ## dlhn/src/big_int.rs, dlhn/src/format/big_int.rs -/

example : BigInt.ofNum 123 = ⟨[123]⟩ := by decide +kernel
example : (BigInt.ofNum (-123)).toNum = -123 := by decide +kernel
/-- Both the newtype and the format module write these bytes. -/
def intBytes (v : Int) (bs : List UInt8) : Prop :=
  (BigInt.ser (.ofNum v)).exec = (bs, .ok ()) ∧ (Format.serBigInt v).exec = (bs, .ok ())
instance (v : Int) (bs : List UInt8) : Decidable (intBytes v bs) := inferInstanceAs (Decidable (_ ∧ _))
example : intBytes 0 [0] := by decide +kernel
example : intBytes (-128) [1, 128] := by decide +kernel
example : intBytes 127 [1, 127] := by decide +kernel
example : intBytes (-32768) [2, 0, 128] := by decide +kernel
example : intBytes 32767 [2, 255, 127] := by decide +kernel
example : intBytes (-32769) [3, 255, 127, 255] := by decide +kernel
example : intBytes 32768 [3, 0, 128, 0] := by decide +kernel
example : intBytes (-2 ^ 31) [4, 0, 0, 0, 128] := by decide +kernel
example : intBytes (2 ^ 31 - 1) [4, 255, 255, 255, 127] := by decide +kernel
example : intBytes (-2 ^ 31 - 1) [5, 255, 255, 255, 127, 255] := by decide +kernel
example : intBytes (2 ^ 31) [5, 0, 0, 0, 128, 0] := by decide +kernel
example : intBytes (-2 ^ 63) (8 :: List.replicate 7 0 ++ [128]) := by decide +kernel
example : intBytes (2 ^ 63 - 1) (8 :: List.replicate 7 255 ++ [127]) := by decide +kernel
example : intBytes (-2 ^ 63 - 1) (9 :: List.replicate 7 255 ++ [127, 255]) := by decide +kernel
example : intBytes (2 ^ 63) (9 :: List.replicate 7 0 ++ [128, 0]) := by decide +kernel
example : intBytes (-2 ^ 127) (16 :: List.replicate 15 0 ++ [128]) := by decide +kernel
example : intBytes (2 ^ 127 - 1) (16 :: List.replicate 15 255 ++ [127]) := by decide +kernel
example : intBytes (-2 ^ 127 - 1) (17 :: List.replicate 15 255 ++ [127, 255]) := by decide +kernel
example : intBytes (2 ^ 127) (17 :: List.replicate 15 0 ++ [128, 0]) := by decide +kernel

/-! ## dlhn/src/big_decimal.rs, dlhn/src/format/big_decimal.rs -/

example : BigDecimal.ofNum .debug ⟨123, 0⟩ = .ok ⟨[123], 0⟩ := by decide +kernel
example : BigDecimal.ofNum .debug ⟨-123, 0⟩ = .ok ⟨[133], 0⟩ ∧
    (⟨[133], 0⟩ : BigDecimal).toNum = ⟨-123, 0⟩ := by decide +kernel
/-- Both the newtype and the format module write these bytes. -/
def decimalBytes (digits : Int) (scale : Int64) (bs : List UInt8) : Prop :=
  (match BigDecimal.ofNum .debug ⟨digits, scale⟩ with
    | .ok d => (BigDecimal.ser d).exec = (bs, .ok ())
    | _ => False) ∧
  (Format.serBigDecimal .debug ⟨digits, scale⟩).exec = (bs, .ok ())
instance (d : Int) (s : Int64) (bs : List UInt8) : Decidable (decimalBytes d s bs) := by
  rw [decimalBytes]
  split <;> infer_instance
example : decimalBytes 0 0 [0] := by decide +kernel
example : decimalBytes 1 0 [1, 1, 0] := by decide +kernel
example : decimalBytes 1 (-1) [1, 1, 1] := by decide +kernel
example : decimalBytes 1 1 [1, 1, 2] := by decide +kernel
example : decimalBytes 10 0 [1, 1, 1] := by decide +kernel
example : decimalBytes 1 63 [1, 1, 126] := by decide +kernel
example : decimalBytes 1 64 [1, 1, 128, 2] := by decide +kernel
example : decimalBytes 1 (-64) [1, 1, 127] := by decide +kernel
example : decimalBytes 1 (-65) [1, 1, 129, 2] := by decide +kernel
example : decimalBytes (-32768) 0 [2, 0, 128, 0] := by decide +kernel
example : decimalBytes 32767 0 [2, 255, 127, 0] := by decide +kernel

/-! ## dlhn/src/date.rs, dlhn/src/format/date.rs -/

example : (Time.fromOrdinalDate 2020 12).map Date.ofTime = some ⟨2020, 12⟩ := by decide +kernel
example : (Time.fromOrdinalDate 2020 12).bind (fun d => (Date.ofTime d).toTime) =
    Time.fromOrdinalDate 2020 12 := by decide +kernel
/-- Both the newtype and the format module write these bytes. -/
def dateBytes (year : Int32) (ordinal : UInt16) (bs : List UInt8) : Prop :=
  Time.fromOrdinalDate year ordinal = some ⟨year, ordinal⟩ ∧
  (Date.ser .debug (Date.ofTime ⟨year, ordinal⟩)).exec = (bs, .ok ()) ∧
  (Format.serDate .debug ⟨year, ordinal⟩).exec = (bs, .ok ())
instance (y : Int32) (o : UInt16) (bs : List UInt8) : Decidable (dateBytes y o bs) :=
  inferInstanceAs (Decidable (_ ∧ _))
example : dateBytes 2000 1 (vecU32 (encodeI32 0) ++ vecU16 0) := by decide +kernel
example : dateBytes 1936 1 (vecU32 (encodeI32 (-64)) ++ vecU16 0) := by decide +kernel
example : dateBytes 1935 1 (vecU32 (encodeI32 (-65)) ++ vecU16 0) := by decide +kernel
example : dateBytes 2063 128 (vecU32 (encodeI32 63) ++ vecU16 127) := by decide +kernel
example : dateBytes 2064 129 (vecU32 (encodeI32 64) ++ vecU16 128) := by decide +kernel
example : dateBytes 2000 366 (vecU32 (encodeI32 0) ++ vecU16 365) := by decide +kernel
-- deserialize_date: 11 January 1970
example : (Format.serDate .debug ⟨1970, 11⟩).exec.1 = [59, 10] := by decide +kernel
example : Prog.run ⟨.w64, 4096⟩ (Format.deDate .debug) [59, 10] = .ok (⟨1970, 11⟩, []) := by rfl

/-! ## dlhn/src/date_time.rs, dlhn/src/format/date_time.rs -/

/-- Both the newtype and the format module write timestamp and nanoseconds. -/
def timeBytes (seconds : Int) (nanos : Nat) : Prop :=
  (DateTime.ser (DateTime.ofTime ⟨seconds, nanos, 0⟩)).exec =
    (vecU64 (encodeI64 (Int64.ofInt seconds)) ++ vecU32 (UInt32.ofNat nanos), .ok ()) ∧
  (Format.serDateTime ⟨seconds, nanos, 0⟩).exec =
    (vecU64 (encodeI64 (Int64.ofInt seconds)) ++ vecU32 (UInt32.ofNat nanos), .ok ())
instance (s : Int) (n : Nat) : Decidable (timeBytes s n) := inferInstanceAs (Decidable (_ ∧ _))
example : timeBytes 0 0 := by decide +kernel
example : timeBytes 0 1 := by decide +kernel
example : timeBytes 0 999999999 := by decide +kernel
example : timeBytes 1 0 := by decide +kernel
example : timeBytes (-8640000000) 0 := by decide +kernel
example : timeBytes 8640000000 0 := by decide +kernel
example : timeBytes (-8640000001) 1 := by decide +kernel
example : timeBytes 8640000000 1 := by decide +kernel
-- `UNIX_EPOCH + 1000000000.nanoseconds()` and `UNIX_EPOCH - 1.days()..` as the model adds them
example : Time.addNanos ⟨0, 0, 0⟩ 1000000000 = some ⟨1, 0, 0⟩ := by decide +kernel
-- eq_decode_time_date_time_dlhn_date_time
example : (⟨8640000000, 1⟩ : DateTime).toTime = .ok ⟨8640000000, 1, 0⟩ := by decide +kernel

/-! ## dlhn/src/body/mod.rs:1290-1544, `validate` -/

example : Body.validate .unit .unit = true ∧ Body.validate .unit (.boolean true) = false := by
  decide +kernel
example : Body.validate (.optional .boolean) (.some (.boolean true)) = true ∧
    Body.validate (.optional .boolean) (.some .unit) = false ∧
    Body.validate (.optional .boolean) .unit = false := by decide +kernel
example : Body.validate .boolean (.boolean true) = true ∧ Body.validate .boolean .unit = false := by
  decide +kernel
-- validate_uint8 .. validate_date_time: a body of the header's kind is valid, a unit is not
example : [(Header.uint8, Body.uint8 123), (.uint16, .uint16 123), (.uint32, .uint32 123),
      (.uint64, .uint64 123), (.int8, .int8 123), (.int16, .int16 123), (.int32, .int32 123),
      (.int64, .int64 123), (.float32, .float32 0x3F8CCCCD), (.float64, .float64 0x3FF199999999999A),
      (.bigUInt, .bigUInt (.ofNum 123)), (.bigInt, .bigInt (.ofNum 123)),
      (.bigDecimal, .bigDecimal ⟨[123], 0⟩), (.string, .string "test"),
      (.binary, .binary [0, 1, 2, 3]), (.date, .date ⟨1970, 1⟩),
      (.dateTime, .dateTime (.ofTime ⟨0, 0, 0⟩))].map
        (fun p => (Body.validate p.1 p.2, Body.validate p.1 .unit)) =
    List.replicate 17 (true, false) := by decide +kernel
example : Body.validate (.array .boolean) (.array [.boolean true, .boolean false, .boolean true]) =
      true ∧ Body.validate (.array .boolean) (.array [.unit]) = false ∧
    Body.validate (.array .boolean) .unit = false := by decide +kernel
example : Body.validate (.tuple [.boolean, .uint8]) (.tuple [.boolean true, .uint8 123]) = true ∧
    Body.validate (.tuple [.boolean, .uint8]) (.tuple [.boolean true, .boolean true]) = false ∧
    Body.validate (.tuple [.boolean, .uint8]) (.tuple [.boolean true, .uint8 123, .uint8 123]) =
      false ∧ Body.validate (.tuple [.boolean, .uint8]) .unit = false := by decide +kernel
example : Body.validate (.map .boolean)
      (.map [("a", .boolean true), ("b", .boolean false), ("c", .boolean true)]) = true ∧
    Body.validate (.map .boolean) (.map [("a", .unit), ("b", .unit), ("c", .unit)]) = false ∧
    Body.validate (.map .boolean) (.map [("a", .boolean true), ("b", .unit), ("c", .unit)]) = false ∧
    Body.validate (.map .boolean) .unit = false := by decide +kernel
example : Body.validate (.enum [.unit, .boolean]) (.enum 0 .unit) = true ∧
    Body.validate (.enum [.unit, .boolean]) (.enum 1 (.boolean true)) = true ∧
    Body.validate (.enum [.unit, .boolean]) (.enum 0 (.boolean true)) = false ∧
    Body.validate (.enum [.unit, .boolean]) (.enum 1 .unit) = false ∧
    Body.validate (.enum [.unit, .boolean]) .unit = false := by decide +kernel

/-! ## dlhn_bench/src/lib.rs:6-50, dlhn_bench/benches/dlhn.rs:12-22 -/

/-- `Test` of the benchmarks. -/
def benchTest : Ty := .struct "Test" [("a", .bool), ("b", .u8), ("c", .u16), ("d", .u32),
  ("e", .u64), ("f", .i8), ("g", .i16), ("h", .i32), ("i", .i64), ("j", .f32), ("k", .f64),
  ("l", .string), ("m", .seq .bool), ("n", .map .string .bool)]
/-- A `Test` with the given `c`, `d`, `g` and `h` and otherwise the members of `Test::default()`. -/
def benchValue (c : UInt16) (d : UInt32) (g : Int16) (h : Int32) : Val := .struct "Test"
  [("a", .bool true), ("b", .u8 255), ("c", .u16 c), ("d", .u32 d), ("e", .u64 (2 ^ 64 - 1)),
    ("f", .i8 (-128)), ("g", .i16 g), ("h", .i32 h), ("i", .i64 (-2 ^ 63)), ("j", .f32 0x7F7FFFFF),
    ("k", .f64 0x7FEFFFFFFFFFFFFF), ("l", .str "test"),
    ("m", .seq (some 4) [.bool true, .bool false, .bool true, .bool false]),
    ("n", .map (some 4) [(.str "a", .bool true), (.str "b", .bool false), (.str "c", .bool true),
      (.str "d", .bool false)])]
/-- The data of `deserialize_dlhn`. -/
def benchData : List UInt8 := [
  1, 255, 254, 255, 0, 247, 255, 255, 255, 0, 255, 255, 255, 255, 255, 255, 255, 255, 255,
  128, 254, 255, 0, 247, 255, 255, 255, 0, 255, 255, 255, 255, 255, 255, 255, 255, 255, 255,
  255, 127, 127, 255, 255, 255, 255, 255, 255, 239, 127, 4, 116, 101, 115, 116, 4, 1, 0, 1,
  0, 4, 1, 97, 1, 1, 98, 0, 1, 99, 1, 1, 100, 0]

-- `serialize_dlhn`: what `Test::default()` is serialized as
example : Ser.toVec (benchValue 65535 0xFFFFFFFF (-0x8000) (-0x80000000)) =
    ([1, 255, 192, 255, 255, 240, 255, 255, 255, 255, 255, 255, 255, 255, 255, 255, 255, 255, 255,
      128, 192, 255, 255, 240, 255, 255, 255, 255, 255, 255, 255, 255, 255, 255, 255, 255, 255, 255,
      255, 127, 127, 255, 255, 255, 255, 255, 255, 239, 127, 4, 116, 101, 115, 116, 4, 1, 0, 1,
      0, 4, 1, 97, 1, 1, 98, 0, 1, 99, 1, 1, 100, 0], .ok ()) := by decide +kernel
-- The data of `deserialize_dlhn` differ from that: they are of an earlier form of the integers.
-- They are read without an error, which is all the benchmark asks for, as another value.
-- (Compared by what the value is serialized as, which tells it, C08.)
example : (Prog.run ⟨.w64, 65536⟩ (De.de ⟨.w64, 65536⟩ benchTest) benchData).map
      (fun x => ((Ser.toVec x.1).1, x.2)) =
    .ok ((Ser.toVec (benchValue 255 0xFFFFFF (-0x80) (-0x800000))).1, []) := by decide +kernel

end Dlhn.Conformance
