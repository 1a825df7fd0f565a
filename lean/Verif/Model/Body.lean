import Verif.Model.Header
import Verif.Model.BigNum
import Verif.Model.Date
/-!
# Dynamic values

Transcription of dlhn/src/body/mod.rs.
-/
namespace Dlhn

/-- `Body`, dlhn/src/body/mod.rs:6-35. `Optional(None)` is `none`,
`Optional(Some(b))` is `some b`. Floats are bit patterns. A `BTreeMap` is the list
of its entries in ascending key order. -/
inductive Body where
  | unit
  | none
  | some (b : Body)
  | boolean (b : Bool)
  | uint8 (v : UInt8)
  | uint16 (v : UInt16)
  | uint32 (v : UInt32)
  | uint64 (v : UInt64)
  | int8 (v : Int8)
  | int16 (v : Int16)
  | int32 (v : Int32)
  | int64 (v : Int64)
  | float32 (bits : UInt32)
  | float64 (bits : UInt64)
  | bigUInt (v : BigUint)
  | bigInt (v : BigInt)
  | bigDecimal (v : BigDecimal)
  | string (s : String)
  | binary (bs : List UInt8)
  | array (bs : List Body)
  | tuple (bs : List Body)
  | map (es : List (String × Body))
  | enum (i : UInt32) (b : Body)
  | date (d : Date)
  | dateTime (d : DateTime)

/-- `Ord for str`: lexicographic order of the bytes. -/
def strLt (a b : String) : Bool := decide (Ser.strBytes a < Ser.strBytes b)

/-- `BTreeMap::insert` on the ordered list of entries; an existing key keeps its
place and gets the new value. -/
def btreeInsert {α : Type} (k : String) (v : α) : List (String × α) → List (String × α)
  | [] => [(k, v)]
  | (k', v') :: es =>
    if strLt k k' then (k, v) :: (k', v') :: es
    else if strLt k' k then (k', v') :: btreeInsert k v es
    else (k', v) :: es

namespace Body

mutual
/-- `Serialize for Body`, dlhn/src/body/mod.rs:37-77. -/
def ser (mode : BuildMode) : Body → WProg SerErr
  | .unit => .skip
  | .none => Ser.emit [0]
  | .some b => (Ser.emit [1]).andThen (ser mode b)
  | .boolean b => Ser.serBool b
  | .uint8 v => Ser.serU8 v
  | .uint16 v => Ser.serU16 v
  | .uint32 v => Ser.serU32 v
  | .uint64 v => Ser.serU64 v
  | .int8 v => Ser.serI8 v
  | .int16 v => Ser.serI16 v
  | .int32 v => Ser.serI32 v
  | .int64 v => Ser.serI64 v
  | .float32 v => Ser.serF32 v
  | .float64 v => Ser.serF64 v
  | .bigUInt v => v.ser
  | .bigInt v => v.ser
  | .bigDecimal v => v.ser
  | .string s => Ser.serStr s
  | .binary bs => Ser.serBytes bs
  -- `Vec<Body>::serialize`: `serialize_seq(Some(len))`
  | .array bs => (Ser.serHint (Option.some bs.length)).andThen (serAll mode bs)
  | .tuple bs => serAll mode bs
  -- `BTreeMap::serialize`: `serialize_map(Some(len))`
  | .map es => (Ser.serHint (Option.some es.length)).andThen (serEntries mode es)
  | .enum i b => (Ser.serU32 i).andThen (ser mode b)
  | .date d => d.ser mode
  | .dateTime d => d.ser
/-- Elements in order. -/
def serAll (mode : BuildMode) : List Body → WProg SerErr
  | [] => .skip
  | b :: bs => (ser mode b).andThen (serAll mode bs)
/-- `serialize_key` (a `String`, through `MapKeySerializer`) and
`serialize_value` for each entry. -/
def serEntries (mode : BuildMode) : List (String × Body) → WProg SerErr
  | [] => .skip
  | (k, b) :: es => (Ser.serStr k).andThen ((ser mode b).andThen (serEntries mode es))
end

/-- Serializing into a `Vec<u8>`. -/
def toVec (mode : BuildMode) (b : Body) : List UInt8 × Outcome SerErr Unit := (ser mode b).exec

/-- `for _ in 0..len { buf.insert(key, value) }`, dlhn/src/body/mod.rs:138-144. -/
def insertLoop {α : Type} (t : Target) (p : Prog DeErr α) :
    Nat → List (String × α) → Prog DeErr (List (String × α))
  | 0, buf => pure buf
  | n + 1, buf => do
    let k ← De.deString t
    let v ← p
    insertLoop t p n (btreeInsert k v buf)

mutual
/-- `Body::deserialize`, dlhn/src/body/mod.rs:80-158. `size` is
`size_of::<Body>()`. Stack use (one frame per level of the header) and the
allocations of boxes, strings, maps and of vectors growing beyond their capacity
are not modelled. -/
def de (t : Target) (mode : BuildMode) (size : Nat) : Header → Prog DeErr Body
  | .unit => pure .unit
  | .optional inner => do
    if ← De.deBool then
      pure (.some (← de t mode size inner))
    else
      pure .none
  | .boolean => do pure (.boolean (← De.deBool))
  | .uint8 => do pure (.uint8 (← De.deU8))
  | .uint16 => do pure (.uint16 (← De.deU16))
  | .uint32 => do pure (.uint32 (← De.deU32))
  | .uint64 => do pure (.uint64 (← De.deU64))
  | .int8 => do pure (.int8 (← De.deI8))
  | .int16 => do pure (.int16 (← De.deI16))
  | .int32 => do pure (.int32 (← De.deI32))
  | .int64 => do pure (.int64 (← De.deI64))
  | .float32 => do pure (.float32 (← De.deF32))
  | .float64 => do pure (.float64 (← De.deF64))
  | .bigUInt => do pure (.bigUInt (← BigUint.de t))
  | .bigInt => do pure (.bigInt (← BigInt.de t))
  | .bigDecimal => do pure (.bigDecimal (← BigDecimal.de t))
  | .string => do pure (.string (← De.deString t))
  | .binary => do pure (.binary (← De.deByteBuf t))
  -- dlhn/src/body/mod.rs:114-121: the capacity is `len as usize`, the loop runs
  -- to the full `u64`
  | .array inner => do
    let len ← De.deU64
    .alloc (t.asUsize len * size) do
      let buf ← De.times len.toNat (de t mode size inner)
      pure (.array buf)
  | .tuple inner => .alloc (inner.length * size) do
      let buf ← deAll t mode size inner
      pure (.tuple buf)
  | .map inner => do
    let len ← De.deU64
    let buf ← insertLoop t (de t mode size inner) len.toNat []
    pure (.map buf)
  | .enum inner => do
    let i ← De.deU32
    let b ← deNth t mode size i.toNat inner
    pure (.enum i b)
  | .date => do pure (.date (← Date.de mode))
  | .dateTime => do pure (.dateTime (← DateTime.de))
/-- Members of a tuple in order, dlhn/src/body/mod.rs:124-126. -/
def deAll (t : Target) (mode : BuildMode) (size : Nat) : List Header → Prog DeErr (List Body)
  | [] => pure []
  | h :: hs => do
    let b ← de t mode size h
    let bs ← deAll t mode size hs
    pure (b :: bs)
/-- `inner.get(i).ok_or(Error::Read)?` and decoding under that member,
dlhn/src/body/mod.rs:149-153. -/
def deNth (t : Target) (mode : BuildMode) (size : Nat) : Nat → List Header → Prog DeErr Body
  | _, [] => .done (.err .read)
  | 0, h :: _ => de t mode size h
  | n + 1, _ :: hs => deNth t mode size n hs
end

mutual
/-- `Body::validate`, dlhn/src/body/mod.rs:160-217. -/
def validate : Header → Body → Bool
  | .unit, .unit => true
  | .optional inner, .some v => validate inner v
  | .optional _, .none => true
  | .boolean, .boolean _ => true
  | .uint8, .uint8 _ => true
  | .uint16, .uint16 _ => true
  | .uint32, .uint32 _ => true
  | .uint64, .uint64 _ => true
  | .int8, .int8 _ => true
  | .int16, .int16 _ => true
  | .int32, .int32 _ => true
  | .int64, .int64 _ => true
  | .float32, .float32 _ => true
  | .float64, .float64 _ => true
  | .bigUInt, .bigUInt _ => true
  | .bigInt, .bigInt _ => true
  | .bigDecimal, .bigDecimal _ => true
  | .string, .string _ => true
  | .binary, .binary _ => true
  | .array inner, .array bs => bs.all fun v => validate inner v
  | .tuple hs, .tuple bs => hs.length == bs.length && validateZip hs bs
  | .map inner, .map es => es.all fun e => validate inner e.2
  | .enum hs, .enum i v => validateNth hs i.toNat v
  | .date, .date _ => true
  | .dateTime, .dateTime _ => true
  | _, _ => false
/-- `zip(..).all(..)`, dlhn/src/body/mod.rs:191-194. -/
def validateZip : List Header → List Body → Bool
  | h :: hs, b :: bs => validate h b && validateZip hs bs
  | _, _ => true
/-- `inner_header.get(*i as usize)`, dlhn/src/body/mod.rs:207-211. -/
def validateNth : List Header → Nat → Body → Bool
  | [], _, _ => false
  | h :: _, 0, v => validate h v
  | _ :: hs, n + 1, v => validateNth hs n v
end

end Body
end Dlhn
