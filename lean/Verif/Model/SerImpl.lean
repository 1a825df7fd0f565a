import Verif.Model.Ser
/-!
# Arbitrary `Serialize` implementations

`Ser.ser` (Model/Ser.lean) is the serializer driven with a value of serde's data
model. Here it is driven by any implementation: a `SerImpl` is the code of a
`Serialize` implementation, as the tree of the calls it makes, and `SerImpl.run`
is what those calls do on `&mut Serializer`, `SerImpl.runKey` what they do on the
`MapKeySerializer` that map keys are given.

Unlike `WProg`, these programs see the result of a failed call: an implementation
that holds a `SerializeSeq`, `SerializeMap` or `SerializeStruct` may ignore the
error of an element, key or field and go on.

Simplifications. An implementation that changes the error a method returned
(`map_err`) is not a `SerImpl`; implementations are generic in the serializer, so
they cannot turn an error of the method that consumes it into `Ok`. Panics of the
implementation's own code are not modelled. Lengths are natural numbers, written
as 64-bit integers.
-/
namespace Dlhn

/-- Code that makes `write_all` calls and is told the result of each. -/
inductive WCode where
  | done (o : Outcome SerErr Unit)
  | writeAll (bs : List UInt8) (k : Option IoErr → WCode)

namespace WCode

/-- Code that passes every error on. -/
def ofProg : WProg SerErr → WCode
  | .done o => .done o
  | .writeAll bs f p => .writeAll bs fun
    | none => ofProg p
    | some e => .done (.err (f e))

/-- `let r = p; k(r)`: go on with the result. -/
def andThen : WCode → (Option SerErr → WCode) → WCode
  | .done (.ok ()), k => k none
  | .done (.err e), k => k (some e)
  | .done (.panic q), _ => .done (.panic q)
  | .writeAll bs f, k => .writeAll bs fun r => (f r).andThen k

/-- `p?; q`. -/
def try_ (p q : WCode) : WCode := p.andThen fun
  | none => q
  | some e => .done (.err e)

/-- On a `Vec<u8>`: what was written, and the result. -/
def exec : WCode → List UInt8 × Outcome SerErr Unit
  | .done o => ([], o)
  | .writeAll bs k => (bs ++ (k none).exec.1, (k none).exec.2)

/-- On an arbitrary writer. -/
def runScript : WCode → WScript → List UInt8 × Outcome SerErr Unit
  | .done o, _ => ([], o)
  | .writeAll bs k, s =>
    match WScript.writeAll bs s with
    | (out, r, s') => (out ++ ((k r).runScript s').1, ((k r).runScript s').2)

end WCode

mutual
/-- Code with a `serde::Serializer`. -/
inductive SerImpl where
  /-- `Err(ser::Error::custom(msg))`. -/
  | error (e : SerErr)
  /-- `if serializer.is_human_readable() { .. } else { .. }`. -/
  | humanReadable (k : Bool → SerImpl)
  | bool (v : Bool)
  | i8 (v : Int8)
  | i16 (v : Int16)
  | i32 (v : Int32)
  | i64 (v : Int64)
  | i128 (v : Int)
  | u8 (v : UInt8)
  | u16 (v : UInt16)
  | u32 (v : UInt32)
  | u64 (v : UInt64)
  | u128 (v : Nat)
  | f32 (bits : UInt32)
  | f64 (bits : UInt64)
  | char (c : Char)
  | str (s : String)
  /-- `collect_str(&value)`, where `value` displays as `s`. -/
  | collectStr (s : String)
  | bytes (bs : List UInt8)
  | none
  | some (v : SerImpl)
  | unit
  | unitStruct (name : String)
  | unitVariant (name : String) (index : UInt32) (variant : String)
  | newtypeStruct (name : String) (v : SerImpl)
  | newtypeVariant (name : String) (index : UInt32) (variant : String) (v : SerImpl)
  /-- `let seq = serializer.serialize_seq(len)?;` and what follows. -/
  | seq (len : Option Nat) (k : SeqSer)
  | tuple (len : Nat) (k : SeqSer)
  | tupleStruct (name : String) (len : Nat) (k : SeqSer)
  | tupleVariant (name : String) (index : UInt32) (variant : String) (len : Nat) (k : SeqSer)
  | map (len : Option Nat) (k : MapSer)
  | struct (name : String) (len : Nat) (k : StructSer)
  | structVariant (name : String) (index : UInt32) (variant : String) (len : Nat) (k : StructSer)
/-- Code with a `SerializeSeq`, `SerializeTuple`, `SerializeTupleStruct` or
`SerializeTupleVariant`. -/
inductive SeqSer where
  /-- `seq.end()`. -/
  | finish
  | error (e : SerErr)
  /-- `let r = seq.serialize_element(&v);` and what follows, given `r.err()`. -/
  | element (v : SerImpl) (k : Option SerErr → SeqSer)
/-- Code with a `SerializeMap`. -/
inductive MapSer where
  | finish
  | error (e : SerErr)
  /-- `let r = map.serialize_key(&v);`. -/
  | key (v : SerImpl) (k : Option SerErr → MapSer)
  /-- `let r = map.serialize_value(&v);`. -/
  | value (v : SerImpl) (k : Option SerErr → MapSer)
/-- Code with a `SerializeStruct` or `SerializeStructVariant`. -/
inductive StructSer where
  | finish
  | error (e : SerErr)
  /-- `let r = s.serialize_field(name, &v);`. -/
  | field (name : String) (v : SerImpl) (k : Option SerErr → StructSer)
  /-- `let r = s.skip_field(name);`. -/
  | skipField (name : String) (k : Option SerErr → StructSer)
end

namespace SerImpl

open Ser WCode

/-- The implementation on a `MapKeySerializer`, dlhn/src/ser.rs:399-575. It does not
define `is_human_readable`, `collect_str` and the 128-bit integers: serde's defaults
are `true`, `serialize_str(&value.to_string())` and an error. -/
def runKey : SerImpl → WCode
  | .error e => .done (.err e)
  | .humanReadable k => (k true).runKey
  | .str s => ofProg (serStr s)
  | .collectStr s => ofProg (serStr s)
  | .i128 _ => .done (.err (.message "i128 is not supported"))
  | .u128 _ => .done (.err (.message "u128 is not supported"))
  | _ => .done (.err .unsupportedKeyType)

mutual
/-- The implementation on `&mut Serializer`, dlhn/src/ser.rs:46-266. -/
def run : SerImpl → WCode
  | .error e => .done (.err e)
  -- dlhn/src/ser.rs:262-265
  | .humanReadable k => (k false).run
  | .bool v => ofProg (serBool v)
  | .i8 v => ofProg (serI8 v)
  | .i16 v => ofProg (serI16 v)
  | .i32 v => ofProg (serI32 v)
  | .i64 v => ofProg (serI64 v)
  -- serde's default
  | .i128 _ => .done (.err (.message "i128 is not supported"))
  | .u8 v => ofProg (serU8 v)
  | .u16 v => ofProg (serU16 v)
  | .u32 v => ofProg (serU32 v)
  | .u64 v => ofProg (serU64 v)
  -- serde's default
  | .u128 _ => .done (.err (.message "u128 is not supported"))
  | .f32 v => ofProg (serF32 v)
  | .f64 v => ofProg (serF64 v)
  | .char c => ofProg (serChar c)
  | .str s => ofProg (serStr s)
  -- serde's default
  | .collectStr s => ofProg (serStr s)
  | .bytes bs => ofProg (serBytes bs)
  -- dlhn/src/ser.rs:151-161
  | .none => ofProg (emit [0])
  | .some v => (ofProg (emit [1])).try_ v.run
  -- dlhn/src/ser.rs:163-203
  | .unit => .done (.ok ())
  | .unitStruct _ => .done (.ok ())
  | .unitVariant _ i _ => ofProg (serU32 i)
  | .newtypeStruct _ v => v.run
  | .newtypeVariant _ i _ v => (ofProg (serU32 i)).try_ v.run
  -- dlhn/src/ser.rs:205-260
  | .seq len k => (ofProg (serHint len)).try_ k.run
  | .tuple _ k => k.run
  | .tupleStruct _ _ k => k.run
  | .tupleVariant _ i _ _ k => (ofProg (serU32 i)).try_ k.run
  | .map len k => (ofProg (serHint len)).try_ k.run
  | .struct _ _ k => k.run
  | .structVariant _ i _ _ k => (ofProg (serU32 i)).try_ k.run
/-- dlhn/src/ser.rs:268-334. -/
def _root_.Dlhn.SeqSer.run : SeqSer → WCode
  | .finish => .done (.ok ())
  | .error e => .done (.err e)
  | .element v k => v.run.andThen fun r => (k r).run
/-- dlhn/src/ser.rs:336-358. -/
def _root_.Dlhn.MapSer.run : MapSer → WCode
  | .finish => .done (.ok ())
  | .error e => .done (.err e)
  | .key v k => v.runKey.andThen fun r => (k r).run
  | .value v k => v.run.andThen fun r => (k r).run
/-- dlhn/src/ser.rs:360-397; `skip_field` is serde's default, which does nothing. -/
def _root_.Dlhn.StructSer.run : StructSer → WCode
  | .finish => .done (.ok ())
  | .error e => .done (.err e)
  | .field _ v k => v.run.andThen fun r => (k r).run
  | .skipField _ k => (k Option.none).run
end

end SerImpl

/-! ## The implementations serde and serde_derive provide -/

mutual
/-- A value of serde's data model, as the implementation that presents it. -/
def implOfVal : Val → SerImpl
  | .bool v => .bool v
  | .i8 v => .i8 v
  | .i16 v => .i16 v
  | .i32 v => .i32 v
  | .i64 v => .i64 v
  | .i128 v => .i128 v
  | .u8 v => .u8 v
  | .u16 v => .u16 v
  | .u32 v => .u32 v
  | .u64 v => .u64 v
  | .u128 v => .u128 v
  | .f32 v => .f32 v
  | .f64 v => .f64 v
  | .char c => .char c
  | .str s => .str s
  | .bytes bs => .bytes bs
  | .none => .none
  | .some v => .some (implOfVal v)
  | .unit => .unit
  | .unitStruct name => .unitStruct name
  | .unitVariant name i variant => .unitVariant name i variant
  | .newtypeStruct name v => .newtypeStruct name (implOfVal v)
  | .newtypeVariant name i variant v => .newtypeVariant name i variant (implOfVal v)
  | .seq h vs => .seq h (seqOfVals vs)
  | .tuple vs => .tuple vs.length (seqOfVals vs)
  | .tupleStruct name vs => .tupleStruct name vs.length (seqOfVals vs)
  | .tupleVariant name i variant vs => .tupleVariant name i variant vs.length (seqOfVals vs)
  | .map h es => .map h (mapOfVals es)
  | .struct name fs => .struct name fs.length (structOfVals fs)
  | .structVariant name i variant fs =>
    .structVariant name i variant fs.length (structOfVals fs)
/-- `for v in vs { seq.serialize_element(v)?; } seq.end()`. -/
def seqOfVals : List Val → SeqSer
  | [] => .finish
  | v :: vs => .element (implOfVal v) fun
    | Option.none => seqOfVals vs
    | Option.some e => .error e
/-- `for (k, v) in es { map.serialize_entry(k, v)?; } map.end()`, where
`serialize_entry` is serde's default: the key, then the value. -/
def mapOfVals : List (Val × Val) → MapSer
  | [] => .finish
  | (k, v) :: es => .key (implOfVal k) fun
    | Option.none => .value (implOfVal v) fun
      | Option.none => mapOfVals es
      | Option.some e => .error e
    | Option.some e => .error e
/-- `s.serialize_field(name, v)?` for each field, then `s.end()`. -/
def structOfVals : List (String × Val) → StructSer
  | [] => .finish
  | (n, v) :: fs => .field n (implOfVal v) fun
    | Option.none => structOfVals fs
    | Option.some e => .error e
end

end Dlhn
