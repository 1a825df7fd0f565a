import Verif.Model.Outcome
/-!
# serde's data model

`Val` has one constructor per method of `serde::Serializer` (what a `Serialize`
impl calls), `Ty` one per method of `serde::Deserializer` (what a `Deserialize`
impl asks for). Rust types map to them as serde defines it: `Vec<T>` is `seq`,
`[T; N]` and `(A, B)` are `tuple`, `usize` is `u64`, `String` is `str`/`string`,
`serde_bytes::ByteBuf` is `bytes`/`byteBuf`, derived structs are `struct`, and so
on. Floats are their bit patterns.
-/
namespace Dlhn

/-- A value as presented to a `serde::Serializer`. `hint` is the declared length
of a sequence or map (`None` for e.g. `#[serde(flatten)]` and iterators without
known length). -/
inductive Val where
  | bool (b : Bool)
  | i8 (v : Int8)
  | i16 (v : Int16)
  | i32 (v : Int32)
  | i64 (v : Int64)
  | i128 (v : Int)
  | u8 (v : UInt8)
  | u16 (v : UInt16)
  | u32 (v : UInt32)
  | u64 (v : UInt64)
  | u128 (v : Nat)
  | f32 (bits : UInt32)
  | f64 (bits : UInt64)
  | char (c : Char)
  | str (s : String)
  | bytes (bs : List UInt8)
  | none
  | some (v : Val)
  | unit
  | unitStruct (name : String)
  | unitVariant (name : String) (index : UInt32) (variant : String)
  | newtypeStruct (name : String) (v : Val)
  | newtypeVariant (name : String) (index : UInt32) (variant : String) (v : Val)
  | seq (hint : Option Nat) (vs : List Val)
  | tuple (vs : List Val)
  | tupleStruct (name : String) (vs : List Val)
  | tupleVariant (name : String) (index : UInt32) (variant : String) (vs : List Val)
  | map (hint : Option Nat) (entries : List (Val × Val))
  | struct (name : String) (fields : List (String × Val))
  | structVariant (name : String) (index : UInt32) (variant : String)
      (fields : List (String × Val))

mutual
/-- What a `Deserialize` impl asks a `serde::Deserializer` for. -/
inductive Ty where
  | bool | i8 | i16 | i32 | i64 | i128 | u8 | u16 | u32 | u64 | u128 | f32 | f64
  | char | string | byteBuf
  /-- `&str` (`deserialize_str`). -/
  | str
  /-- `&[u8]` (`deserialize_bytes`). -/
  | bytes
  /-- `deserialize_any` (untagged enums, `serde_json::Value`, flatten, ...). -/
  | any
  /-- `deserialize_ignored_any` (`IgnoredAny`). -/
  | ignoredAny
  | option (t : Ty)
  | unit
  | unitStruct (name : String)
  | newtypeStruct (name : String) (t : Ty)
  | seq (t : Ty)
  | tuple (ts : List Ty)
  | tupleStruct (name : String) (ts : List Ty)
  | map (key : Ty) (value : Ty)
  | struct (name : String) (fields : List (String × Ty))
  | enum (name : String) (variants : List (String × VTy))
/-- Payload of an enum variant. -/
inductive VTy where
  | unit
  | newtype (t : Ty)
  | tuple (ts : List Ty)
  | struct (fields : List (String × Ty))
end

end Dlhn
