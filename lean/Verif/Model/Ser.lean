import Verif.Model.Serde
import Verif.Model.Writer
import Verif.Model.Varint
import Verif.Model.ZigZag
/-!
# The serializer

Transcription of dlhn/src/ser.rs. Every `self.output.write_all(..)` is one
`writeAll` node; `?` is `andThen`.
-/
namespace Dlhn

/-- `ser::Error`, dlhn/src/ser.rs:11-16. -/
inductive SerErr where
  | write
  | unsupportedKeyType
  | message (s : String)
  deriving DecidableEq, Repr

/-- `ser::Error::custom`, dlhn/src/ser.rs:18-22. The argument is the text of what is passed. -/
def SerErr.custom (text : String) : SerErr := .message text
/-- `impl Display for Error`, dlhn/src/ser.rs:24-32: what `to_string` gives. -/
def SerErr.display : SerErr → String
  | .write => "write error"
  | .unsupportedKeyType => "unsupported key type"
  | .message s => s

namespace Ser

open PrefixVarint

/-- `self.output.write_all(bs).or(Err(Error::Write))`. -/
def emit (bs : List UInt8) : WProg SerErr := .writeAll bs (fun _ => .write) .skip

/-- The bytes of a string (`str::as_bytes`). -/
def strBytes (s : String) : List UInt8 := s.toByteArray.data.toList

/-- `serialize_bool`, dlhn/src/ser.rs:57-63. -/
def serBool (v : Bool) : WProg SerErr := if v then emit [1] else emit [0]
/-- `serialize_i8`, dlhn/src/ser.rs:65-69: `to_le_bytes`. -/
def serI8 (v : Int8) : WProg SerErr := emit [v.toUInt8]
/-- `serialize_i16`, dlhn/src/ser.rs:71-75. -/
def serI16 (v : Int16) : WProg SerErr :=
  emit (slice (encodeU16 (ZigZag.encodeI16 v) (Vector.replicate 3 0)))
/-- `serialize_i32`, dlhn/src/ser.rs:77-81. -/
def serI32 (v : Int32) : WProg SerErr :=
  emit (slice (encodeU32 (ZigZag.encodeI32 v) (Vector.replicate 5 0)))
/-- `serialize_i64`, dlhn/src/ser.rs:83-87. -/
def serI64 (v : Int64) : WProg SerErr :=
  emit (slice (encodeU64 (ZigZag.encodeI64 v) (Vector.replicate 9 0)))
/-- `serialize_u8`, dlhn/src/ser.rs:95-99: `to_le_bytes`. -/
def serU8 (v : UInt8) : WProg SerErr := emit [v]
/-- `serialize_u16`, dlhn/src/ser.rs:101-105. -/
def serU16 (v : UInt16) : WProg SerErr := emit (slice (encodeU16 v (Vector.replicate 3 0)))
/-- `serialize_u32`, dlhn/src/ser.rs:107-111. -/
def serU32 (v : UInt32) : WProg SerErr := emit (slice (encodeU32 v (Vector.replicate 5 0)))
/-- `serialize_u64`, dlhn/src/ser.rs:113-117. -/
def serU64 (v : UInt64) : WProg SerErr := emit (slice (encodeU64 v (Vector.replicate 9 0)))
/-- `serialize_f32`, dlhn/src/ser.rs:125-129: `to_le_bytes` of the bits. -/
def serF32 (v : UInt32) : WProg SerErr :=
  emit [v.toUInt8, (v >>> 8).toUInt8, (v >>> 16).toUInt8, (v >>> 24).toUInt8]
/-- `serialize_f64`, dlhn/src/ser.rs:131-135: `to_le_bytes` of the bits. -/
def serF64 (v : UInt64) : WProg SerErr :=
  emit [v.toUInt8, (v >>> 8).toUInt8, (v >>> 16).toUInt8, (v >>> 24).toUInt8,
    (v >>> 32).toUInt8, (v >>> 40).toUInt8, (v >>> 48).toUInt8, (v >>> 56).toUInt8]
/-- `(len as u64).serialize(..)` / `usize::serialize`, which calls
`serialize_u64(len as u64)`. -/
def serLen (n : Nat) : WProg SerErr := serU64 (UInt64.ofNat n)
/-- `serialize_str`, dlhn/src/ser.rs:141-144. -/
def serStr (s : String) : WProg SerErr :=
  (serLen (strBytes s).length).andThen (emit (strBytes s))
/-- `serialize_char`, dlhn/src/ser.rs:137-139: `to_string().serialize(self)`. -/
def serChar (c : Char) : WProg SerErr := serStr (String.singleton c)
/-- `serialize_bytes`, dlhn/src/ser.rs:146-149. -/
def serBytes (bs : List UInt8) : WProg SerErr := (serLen bs.length).andThen (emit bs)
/-- The length written by `serialize_seq` / `serialize_map`,
dlhn/src/ser.rs:205-210, 235-240: only if it is declared. -/
def serHint : Option Nat → WProg SerErr
  | some n => serLen n
  | none => .skip

/-- A map key through `MapKeySerializer`, dlhn/src/ser.rs:399-575: only
`serialize_str` is accepted; 128-bit integers hit serde's default error. -/
def serKey : Val → WProg SerErr
  | .str s => serStr s
  | .i128 _ => .done (.err (.message "i128 is not supported"))
  | .u128 _ => .done (.err (.message "u128 is not supported"))
  | _ => .done (.err .unsupportedKeyType)

mutual
/-- `value.serialize(&mut Serializer)`, dlhn/src/ser.rs:46-266. -/
def ser : Val → WProg SerErr
  | .bool b => serBool b
  | .i8 v => serI8 v
  | .i16 v => serI16 v
  | .i32 v => serI32 v
  | .i64 v => serI64 v
  -- serde's default `serialize_i128` (commented out at dlhn/src/ser.rs:89-93)
  | .i128 _ => .done (.err (.message "i128 is not supported"))
  | .u8 v => serU8 v
  | .u16 v => serU16 v
  | .u32 v => serU32 v
  | .u64 v => serU64 v
  -- serde's default `serialize_u128` (commented out at dlhn/src/ser.rs:119-123)
  | .u128 _ => .done (.err (.message "u128 is not supported"))
  | .f32 v => serF32 v
  | .f64 v => serF64 v
  | .char c => serChar c
  | .str s => serStr s
  | .bytes bs => serBytes bs
  -- `serialize_none`, `serialize_some`, dlhn/src/ser.rs:151-161
  | .none => emit [0]
  | .some v => (emit [1]).andThen (ser v)
  -- `serialize_unit`, `serialize_unit_struct`, dlhn/src/ser.rs:163-169
  | .unit => .skip
  | .unitStruct _ => .skip
  -- `serialize_unit_variant`, dlhn/src/ser.rs:171-178
  | .unitVariant _ i _ => serU32 i
  -- `serialize_newtype_struct`, dlhn/src/ser.rs:180-189
  | .newtypeStruct _ v => ser v
  -- `serialize_newtype_variant`, dlhn/src/ser.rs:191-203
  | .newtypeVariant _ i _ v => (serU32 i).andThen (ser v)
  -- `serialize_seq`, dlhn/src/ser.rs:205-210, elements 268-283
  | .seq h vs => (serHint h).andThen (serAll vs)
  -- `serialize_tuple`, dlhn/src/ser.rs:212-214, elements 285-300
  | .tuple vs => serAll vs
  -- `serialize_tuple_struct`, dlhn/src/ser.rs:216-222, fields 302-317
  | .tupleStruct _ vs => serAll vs
  -- `serialize_tuple_variant`, dlhn/src/ser.rs:224-233, fields 319-334
  | .tupleVariant _ i _ vs => (serU32 i).andThen (serAll vs)
  -- `serialize_map`, dlhn/src/ser.rs:235-240, entries 336-358
  | .map h es => (serHint h).andThen (serEntries es)
  -- `serialize_struct`, dlhn/src/ser.rs:243-249, fields 360-378
  | .struct _ fs => serFields fs
  -- `serialize_struct_variant`, dlhn/src/ser.rs:251-260, fields 380-397
  | .structVariant _ i _ fs => (serU32 i).andThen (serFields fs)
/-- `serialize_element` / `serialize_field` for each, in order, then `end`. -/
def serAll : List Val → WProg SerErr
  | [] => .skip
  | v :: vs => (ser v).andThen (serAll vs)
/-- `serialize_key` then `serialize_value` for each entry, in order. -/
def serEntries : List (Val × Val) → WProg SerErr
  | [] => .skip
  | (k, v) :: es => (serKey k).andThen ((ser v).andThen (serEntries es))
/-- `serialize_field(name, value)` for each; the name is ignored. -/
def serFields : List (String × Val) → WProg SerErr
  | [] => .skip
  | (_, v) :: fs => (ser v).andThen (serFields fs)
end

/-- Serializing into a `Vec<u8>`: the bytes and the result. -/
def toVec (v : Val) : List UInt8 × Outcome SerErr Unit := (ser v).exec

end Ser
end Dlhn
