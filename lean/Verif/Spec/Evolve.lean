import Verif.Spec.Wire
/-!
# Specification: changing the type of stored data

`Same v w`: `w` is the value `v` after a change of its type, as one would say it
without knowing any bytes. `Becomes old new`: a change of a type after which every
stored value should still be readable.
-/
namespace Dlhn.Spec

/-- The same data as a value of another type. -/
inductive Same : Val → Val → Prop where
  | refl (v : Val) : Same v v
  | symm {v w : Val} : Same v w → Same w v
  | trans {u v w : Val} : Same u v → Same v w → Same u w
  -- small numbers as numbers of another width
  | u8_u16 (x : UInt8) (y : UInt16) : x.toNat = y.toNat → x.toNat < 2 ^ 7 → Same (.u8 x) (.u16 y)
  | u16_u32 (x : UInt16) (y : UInt32) : x.toNat = y.toNat → x.toNat < 2 ^ 14 →
      Same (.u16 x) (.u32 y)
  | u32_u64 (x : UInt32) (y : UInt64) : x.toNat = y.toNat → x.toNat < 2 ^ 28 →
      Same (.u32 x) (.u64 y)
  | i16_i32 (x : Int16) (y : Int32) : x.toInt = y.toInt → -2 ^ 13 ≤ x.toInt → x.toInt < 2 ^ 13 →
      Same (.i16 x) (.i32 y)
  | i32_i64 (x : Int32) (y : Int64) : x.toInt = y.toInt → -2 ^ 27 ≤ x.toInt → x.toInt < 2 ^ 27 →
      Same (.i32 x) (.i64 y)
  -- scalars as bytes
  | bool_u8 (b : Bool) : Same (.bool b) (.u8 (if b then 1 else 0))
  | i8_u8 (x : Int8) : Same (.i8 x) (.u8 x.toUInt8)
  | f32_bytes (bits : UInt32) : Same (.f32 bits) (.tuple ((leBytes 4 bits.toNat).map .u8))
  | f64_bytes (bits : UInt64) : Same (.f64 bits) (.tuple ((leBytes 8 bits.toNat).map .u8))
  -- text and bytes
  | char_str (c : Char) : Same (.char c) (.str (String.singleton c))
  | str_bytes (s : String) : Same (.str s) (.bytes (utf8 s))
  | bytes_seq (bs : List UInt8) : Same (.bytes bs) (.seq (some bs.length) (bs.map .u8))
  -- options are a bool and what follows it
  | none_bool : Same .none (.bool false)
  | some_tuple (v : Val) : Same (.some v) (.tuple [.bool true, v])
  -- records are tuples
  | unit_tuple : Same .unit (.tuple [])
  | unitStruct (name : String) : Same (.unitStruct name) .unit
  | newtype (name : String) (v : Val) : Same (.newtypeStruct name v) v
  | single (v : Val) : Same (.tuple [v]) v
  | nested (pre vs post : List Val) :
      Same (.tuple (pre ++ .tuple vs :: post)) (.tuple (pre ++ vs ++ post))
  | tupleStruct (name : String) (vs : List Val) : Same (.tupleStruct name vs) (.tuple vs)
  | struct (name : String) (fs : List (String × Val)) :
      Same (.struct name fs) (.tuple (fs.map (·.2)))
  -- enums are an index and what follows it
  | unitVariant (name : String) (i : UInt32) (vn : String) :
      Same (.unitVariant name i vn) (.u32 i)
  | newtypeVariant (name : String) (i : UInt32) (vn : String) (v : Val) :
      Same (.newtypeVariant name i vn v) (.tuple [.u32 i, v])
  | tupleVariant (name : String) (i : UInt32) (vn : String) (vs : List Val) :
      Same (.tupleVariant name i vn vs) (.tuple (.u32 i :: vs))
  | structVariant (name : String) (i : UInt32) (vn : String) (fs : List (String × Val)) :
      Same (.structVariant name i vn fs) (.tuple (.u32 i :: fs.map (·.2)))
  -- maps are sequences of pairs
  | map (h : Option Nat) (es : List (Val × Val)) :
      Same (.map h es) (.seq h (es.map fun e => .tuple [e.1, e.2]))
  -- anywhere inside
  | tupleAt (pre post : List Val) (v w : Val) : Same v w →
      Same (.tuple (pre ++ v :: post)) (.tuple (pre ++ w :: post))
  | seqAt (h : Option Nat) (pre post : List Val) (v w : Val) : Same v w →
      Same (.seq h (pre ++ v :: post)) (.seq h (pre ++ w :: post))

/-- The integer types wider than a byte. -/
def wideTypes : List Ty := [.u16, .u32, .u64, .i16, .i32, .i64]

/-- The number a value of such a type is written as: itself, or its position in
0, -1, 1, -2, 2, ... -/
def writtenAs : Val → Option Nat
  | .u16 n => some n.toNat
  | .u32 n => some n.toNat
  | .u64 n => some n.toNat
  | .i16 n => some (zigzag n.toInt)
  | .i32 n => some (zigzag n.toInt)
  | .i64 n => some (zigzag n.toInt)
  | _ => none

/-- The payload of an enum value, as a value of its own. -/
def payloadOf : Val → Val
  | .newtypeVariant _ _ _ v => v
  | .tupleVariant _ _ _ vs => .tuple vs
  | .structVariant _ _ _ fs => .struct "" fs
  | _ => .unit

/-- Its type. -/
def payloadTy : VTy → Ty
  | .unit => .unit
  | .newtype ty => ty
  | .tuple ts => .tuple ts
  | .struct fts => .struct "" fts

/-- The enum value with a given payload, at the variant `vn` of index `i`. -/
def withPayload (name : String) (i : UInt32) (vn : String) : VTy → Val → Val
  | .newtype _, v => .newtypeVariant name i vn v
  | .tuple _, .tuple vs => .tupleVariant name i vn vs
  | .struct _, .struct _ fs => .structVariant name i vn fs
  | _, _ => .unitVariant name i vn

/-- Payload shapes that are the same on the wire. -/
inductive PayloadAlike : VTy → VTy → Prop where
  | unit : PayloadAlike .unit (.tuple [])
  | newtype (ty : Ty) : PayloadAlike (.newtype ty) (.tuple [ty])
  | struct (fs : List (String × Ty)) : PayloadAlike (.struct fs) (.tuple (fs.map (·.2)))

/-- A change of a type that keeps stored values readable. -/
inductive Becomes : Ty → Ty → Prop where
  | refl (ty : Ty) : Becomes ty ty
  | trans {a b c : Ty} : Becomes a b → Becomes b c → Becomes a c
  | bool_u8 : Becomes .bool .u8
  | i8_u8 : Becomes .i8 .u8
  | u8_i8 : Becomes .u8 .i8
  | char_string : Becomes .char .string
  | string_bytes : Becomes .string .byteBuf
  | bytes_vec : Becomes .byteBuf (.seq .u8)
  | vec_bytes : Becomes (.seq .u8) .byteBuf
  | wrap (name : String) (ty : Ty) : Becomes ty (.newtypeStruct name ty)
  | unwrap (name : String) (ty : Ty) : Becomes (.newtypeStruct name ty) ty
  | single (ty : Ty) : Becomes ty (.tuple [ty])
  | unsingle (ty : Ty) : Becomes (.tuple [ty]) ty
  | unit_struct (name : String) : Becomes .unit (.unitStruct name)
  | struct_unit (name : String) : Becomes (.unitStruct name) .unit
  | unit_tuple : Becomes .unit (.tuple [])
  | tuple_unit : Becomes (.tuple []) .unit
  | tupleStruct_tuple (name : String) (ts : List Ty) : Becomes (.tupleStruct name ts) (.tuple ts)
  | tuple_tupleStruct (name : String) (ts : List Ty) : Becomes (.tuple ts) (.tupleStruct name ts)
  | struct_tuple (name : String) (fs : List (String × Ty)) :
      Becomes (.struct name fs) (.tuple (fs.map (·.2)))
  | tuple_struct (name : String) (fs : List (String × Ty)) :
      Becomes (.tuple (fs.map (·.2))) (.struct name fs)
  | nest (pre ts post : List Ty) :
      Becomes (.tuple (pre ++ ts ++ post)) (.tuple (pre ++ .tuple ts :: post))
  | unnest (pre ts post : List Ty) :
      Becomes (.tuple (pre ++ .tuple ts :: post)) (.tuple (pre ++ ts ++ post))
  | map_vec (kt vt : Ty) : Becomes (.map kt vt) (.seq (.tuple [kt, vt]))
  | vec_map (kt vt : Ty) : Becomes (.seq (.tuple [kt, vt])) (.map kt vt)
  /-- New variants at the end. -/
  | append (name : String) (vs more : List (String × VTy)) :
      Becomes (.enum name vs) (.enum name (vs ++ more))
  | renameEnum (name name' : String) (vs : List (String × VTy)) :
      Becomes (.enum name vs) (.enum name' vs)
  /-- A variant renamed and its payload changed. -/
  | variantAt (name : String) (pre post : List (String × VTy)) (vn vn' : String) (ts us : List Ty) :
      Becomes (.tuple ts) (.tuple us) →
      Becomes (.enum name (pre ++ (vn, .tuple ts) :: post))
        (.enum name (pre ++ (vn', .tuple us) :: post))
  /-- A variant with another kind of payload. -/
  | payload_tuple (name : String) (pre post : List (String × VTy)) (vn : String) (p q : VTy) :
      PayloadAlike p q →
      Becomes (.enum name (pre ++ (vn, p) :: post)) (.enum name (pre ++ (vn, q) :: post))
  | tuple_payload (name : String) (pre post : List (String × VTy)) (vn : String) (p q : VTy) :
      PayloadAlike p q →
      Becomes (.enum name (pre ++ (vn, q) :: post)) (.enum name (pre ++ (vn, p) :: post))
  -- anywhere inside
  | option {a b : Ty} : Becomes a b → Becomes (.option a) (.option b)
  | seq {a b : Ty} : Becomes a b → Becomes (.seq a) (.seq b)
  | tupleAt (pre post : List Ty) {a b : Ty} : Becomes a b →
      Becomes (.tuple (pre ++ a :: post)) (.tuple (pre ++ b :: post))

end Dlhn.Spec
