import Verif.Model.Serde
import Verif.Spec.Varint
import Verif.Spec.ZigZag
/-!
# Specification: the DLHN body format and the values of a type

Independent of the serializer and deserializer models: bytes are given by the
arithmetic specifications of varint and zigzag, and `Has` says in words which
values a type has.
-/
namespace Dlhn.Spec

/-- The bytes of a string. -/
def utf8 (s : String) : List UInt8 := s.toByteArray.data.toList

/-- Length-prefixed bytes. -/
def block (bs : List UInt8) : List UInt8 := varint 64 bs.length ++ bs

/-- A declared length is written as a 64-bit varint, an undeclared one not at
all. -/
def lengthPrefix : Option Nat → List UInt8
  | none => []
  | some n => varint 64 n

mutual
/-- The encoding of a value. (128-bit integers have none; see `Serializable`.) -/
def wire : Val → List UInt8
  | .bool b => [if b then 1 else 0]
  | .i8 v => [v.toUInt8]
  | .i16 v => varint 16 (zigzag v.toInt)
  | .i32 v => varint 32 (zigzag v.toInt)
  | .i64 v => varint 64 (zigzag v.toInt)
  | .i128 _ => []
  | .u8 v => [v]
  | .u16 v => varint 16 v.toNat
  | .u32 v => varint 32 v.toNat
  | .u64 v => varint 64 v.toNat
  | .u128 _ => []
  | .f32 bits => leBytes 4 bits.toNat
  | .f64 bits => leBytes 8 bits.toNat
  | .char c => block (utf8 (String.singleton c))
  | .str s => block (utf8 s)
  | .bytes bs => block bs
  | .none => [0]
  | .some v => 1 :: wire v
  | .unit => []
  | .unitStruct _ => []
  | .unitVariant _ i _ => varint 32 i.toNat
  | .newtypeStruct _ v => wire v
  | .newtypeVariant _ i _ v => varint 32 i.toNat ++ wire v
  | .seq h vs => lengthPrefix h ++ wireAll vs
  | .tuple vs => wireAll vs
  | .tupleStruct _ vs => wireAll vs
  | .tupleVariant _ i _ vs => varint 32 i.toNat ++ wireAll vs
  | .map h es => lengthPrefix h ++ wireEntries es
  | .struct _ fs => wireFields fs
  | .structVariant _ i _ fs => varint 32 i.toNat ++ wireFields fs
/-- Concatenation of the encodings. -/
def wireAll : List Val → List UInt8
  | [] => []
  | v :: vs => wire v ++ wireAll vs
/-- Keys and values alternate. -/
def wireEntries : List (Val × Val) → List UInt8
  | [] => []
  | (k, v) :: es => wire k ++ wire v ++ wireEntries es
/-- Field names are not encoded. -/
def wireFields : List (String × Val) → List UInt8
  | [] => []
  | (_, v) :: fs => wire v ++ wireFields fs
end

/-- A map key that can be serialized: a plain string. -/
def IsKey : Val → Prop
  | .str _ => True
  | _ => False

mutual
/-- Values the serializer accepts: no 128-bit integers anywhere, and only plain
strings as map keys. -/
def Serializable : Val → Prop
  | .i128 _ => False
  | .u128 _ => False
  | .some v => Serializable v
  | .newtypeStruct _ v => Serializable v
  | .newtypeVariant _ _ _ v => Serializable v
  | .seq _ vs => AllSerializable vs
  | .tuple vs => AllSerializable vs
  | .tupleStruct _ vs => AllSerializable vs
  | .tupleVariant _ _ _ vs => AllSerializable vs
  | .map _ es => EntriesSerializable es
  | .struct _ fs => FieldsSerializable fs
  | .structVariant _ _ _ fs => FieldsSerializable fs
  | _ => True
/-- All elements are serializable. -/
def AllSerializable : List Val → Prop
  | [] => True
  | v :: vs => Serializable v ∧ AllSerializable vs
/-- All keys are plain strings and all values are serializable. -/
def EntriesSerializable : List (Val × Val) → Prop
  | [] => True
  | (k, v) :: es => IsKey k ∧ Serializable v ∧ EntriesSerializable es
/-- All fields are serializable. -/
def FieldsSerializable : List (String × Val) → Prop
  | [] => True
  | (_, v) :: fs => Serializable v ∧ FieldsSerializable fs
end

mutual
/-- All lengths in the value fit in 64 bits, as those of every Rust value do. -/
def Fits : Val → Prop
  | .str s => (utf8 s).length < 2 ^ 64
  | .bytes bs => bs.length < 2 ^ 64
  | .some v => Fits v
  | .newtypeStruct _ v => Fits v
  | .newtypeVariant _ _ _ v => Fits v
  | .seq h vs => (∀ n, h = some n → n < 2 ^ 64) ∧ AllFit vs
  | .tuple vs => AllFit vs
  | .tupleStruct _ vs => AllFit vs
  | .tupleVariant _ _ _ vs => AllFit vs
  | .map h es => (∀ n, h = some n → n < 2 ^ 64) ∧ EntriesFit es
  | .struct _ fs => FieldsFit fs
  | .structVariant _ _ _ fs => FieldsFit fs
  | _ => True
/-- All elements fit. -/
def AllFit : List Val → Prop
  | [] => True
  | v :: vs => Fits v ∧ AllFit vs
/-- All keys and values fit. -/
def EntriesFit : List (Val × Val) → Prop
  | [] => True
  | (k, v) :: es => Fits k ∧ Fits v ∧ EntriesFit es
/-- All fields fit. -/
def FieldsFit : List (String × Val) → Prop
  | [] => True
  | (_, v) :: fs => Fits v ∧ FieldsFit fs
end

/-! ## Types and their values -/

mutual
/-- `Has t ty v`: `v` is a value of type `ty` on target `t`. Lengths are below
the size of the address space, as for every Rust value. -/
def Has (t : Target) : Ty → Val → Prop
  | .bool, v => ∃ b, v = .bool b
  | .i8, v => ∃ x, v = .i8 x
  | .i16, v => ∃ x, v = .i16 x
  | .i32, v => ∃ x, v = .i32 x
  | .i64, v => ∃ x, v = .i64 x
  | .i128, v => ∃ x, v = .i128 x
  | .u8, v => ∃ x, v = .u8 x
  | .u16, v => ∃ x, v = .u16 x
  | .u32, v => ∃ x, v = .u32 x
  | .u64, v => ∃ x, v = .u64 x
  | .u128, v => ∃ x, v = .u128 x
  | .f32, v => ∃ x, v = .f32 x
  | .f64, v => ∃ x, v = .f64 x
  | .char, v => ∃ c, v = .char c
  | .string, v => ∃ s, v = .str s ∧ (utf8 s).length < 2 ^ t.ptr.bits
  | .byteBuf, v => ∃ bs, v = .bytes bs ∧ bs.length < 2 ^ t.ptr.bits
  | .str, v => ∃ s, v = .str s ∧ (utf8 s).length < 2 ^ t.ptr.bits
  | .bytes, v => ∃ bs, v = .bytes bs ∧ bs.length < 2 ^ t.ptr.bits
  -- a type that asks for "any" or ignores its input has no fixed set of values
  | .any, _ => False
  | .ignoredAny, _ => False
  | .option ty, v => v = .none ∨ ∃ w, v = .some w ∧ Has t ty w
  | .unit, v => v = .unit
  | .unitStruct name, v => v = .unitStruct name
  | .newtypeStruct name ty, v => ∃ w, v = .newtypeStruct name w ∧ Has t ty w
  | .seq ty, v => ∃ vs, v = .seq (some vs.length) vs ∧ vs.length < 2 ^ t.ptr.bits ∧
      ∀ w ∈ vs, Has t ty w
  | .tuple ts, v => ∃ vs, v = .tuple vs ∧ HasAll t ts vs
  | .tupleStruct name ts, v => ∃ vs, v = .tupleStruct name vs ∧ HasAll t ts vs
  | .map kt vt, v => ∃ es, v = .map (some es.length) es ∧ es.length < 2 ^ t.ptr.bits ∧
      ∀ e ∈ es, Has t kt e.1 ∧ Has t vt e.2
  | .struct name fts, v => ∃ fs, v = .struct name fs ∧ HasFields t fts fs
  | .enum name vs, v => HasVariant t name 0 vs v
/-- Member-wise, same length. -/
def HasAll (t : Target) : List Ty → List Val → Prop
  | [], vs => vs = []
  | ty :: ts, vs => ∃ w ws, vs = w :: ws ∧ Has t ty w ∧ HasAll t ts ws
/-- Field-wise, same names in the same order. -/
def HasFields (t : Target) : List (String × Ty) → List (String × Val) → Prop
  | [], fs => fs = []
  | (n, ty) :: fts, fs => ∃ w ws, fs = (n, w) :: ws ∧ Has t ty w ∧ HasFields t fts ws
/-- One of the variants, the first of which has index `k`. -/
def HasVariant (t : Target) (name : String) : Nat → List (String × VTy) → Val → Prop
  | _, [], _ => False
  | k, (vn, vt) :: vs, v =>
    HasPayload t name (UInt32.ofNat k) vn vt v ∨ HasVariant t name (k + 1) vs v
/-- A value of the variant `vn` with index `i`. -/
def HasPayload (t : Target) (name : String) (i : UInt32) (vn : String) : VTy → Val → Prop
  | .unit, v => v = .unitVariant name i vn
  | .newtype ty, v => ∃ w, v = .newtypeVariant name i vn w ∧ Has t ty w
  | .tuple ts, v => ∃ vs, v = .tupleVariant name i vn vs ∧ HasAll t ts vs
  | .struct fts, v => ∃ fs, v = .structVariant name i vn fs ∧ HasFields t fts fs
end

mutual
/-- Types whose decoder never meets a `todo!()`: nothing asks for `any`, `&str`,
`&[u8]` or `ignored_any`. -/
def Decodable : Ty → Prop
  | .any => False
  | .str => False
  | .bytes => False
  | .ignoredAny => False
  | .option ty => Decodable ty
  | .newtypeStruct _ ty => Decodable ty
  | .seq ty => Decodable ty
  | .tuple ts => AllDecodable ts
  | .tupleStruct _ ts => AllDecodable ts
  | .map kt vt => Decodable kt ∧ Decodable vt
  | .struct _ fs => FieldsDecodable fs
  | .enum _ vs => VariantsDecodable vs
  | _ => True
/-- All members are decodable. -/
def AllDecodable : List Ty → Prop
  | [] => True
  | ty :: ts => Decodable ty ∧ AllDecodable ts
/-- All fields are decodable. -/
def FieldsDecodable : List (String × Ty) → Prop
  | [] => True
  | (_, ty) :: fs => Decodable ty ∧ FieldsDecodable fs
/-- All variants are decodable. -/
def VariantsDecodable : List (String × VTy) → Prop
  | [] => True
  | (_, vt) :: vs => PayloadDecodable vt ∧ VariantsDecodable vs
/-- The payload is decodable. -/
def PayloadDecodable : VTy → Prop
  | .unit => True
  | .newtype ty => Decodable ty
  | .tuple ts => AllDecodable ts
  | .struct fs => FieldsDecodable fs
end

mutual
/-- Types the crate supports in both directions: additionally no 128-bit
integers, string map keys, and enums of at most 16384 variants. -/
def Supported : Ty → Prop
  | .i128 => False
  | .u128 => False
  | .any => False
  | .str => False
  | .bytes => False
  | .ignoredAny => False
  | .option ty => Supported ty
  | .newtypeStruct _ ty => Supported ty
  | .seq ty => Supported ty
  | .tuple ts => AllSupported ts
  | .tupleStruct _ ts => AllSupported ts
  | .map kt vt => kt = .string ∧ Supported vt
  | .struct _ fs => FieldsSupported fs
  | .enum _ vs => vs.length ≤ 16384 ∧ VariantsSupported vs
  | _ => True
/-- All members are supported. -/
def AllSupported : List Ty → Prop
  | [] => True
  | ty :: ts => Supported ty ∧ AllSupported ts
/-- All fields are supported. -/
def FieldsSupported : List (String × Ty) → Prop
  | [] => True
  | (_, ty) :: fs => Supported ty ∧ FieldsSupported fs
/-- All variants are supported. -/
def VariantsSupported : List (String × VTy) → Prop
  | [] => True
  | (_, vt) :: vs => PayloadSupported vt ∧ VariantsSupported vs
/-- The payload is supported. -/
def PayloadSupported : VTy → Prop
  | .unit => True
  | .newtype ty => Supported ty
  | .tuple ts => AllSupported ts
  | .struct fs => FieldsSupported fs
end

/-- The variant index of an enum value. -/
def indexOf : Val → Option UInt32
  | .unitVariant _ i _ => some i
  | .newtypeVariant _ i _ _ => some i
  | .tupleVariant _ i _ _ => some i
  | .structVariant _ i _ _ => some i
  | _ => none

end Dlhn.Spec
