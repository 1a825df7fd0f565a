import Verif.Model.Reader
import Verif.Model.Writer
import Verif.Model.Varint
/-!
# Headers

Transcription of dlhn/src/header/{mod,ser,de}.rs.
-/
namespace Dlhn

/-- `enum Header`, dlhn/src/header/mod.rs:32-61. -/
inductive Header where
  | unit
  | optional (inner : Header)
  | boolean
  | uint8
  | uint16
  | uint32
  | uint64
  | int8
  | int16
  | int32
  | int64
  | float32
  | float64
  | bigUInt
  | bigInt
  | bigDecimal
  | string
  | binary
  | array (inner : Header)
  | tuple (inner : List Header)
  | map (inner : Header)
  | enum (inner : List Header)
  | date
  | dateTime
  deriving Repr

namespace Header

open PrefixVarint

/-- dlhn/src/header/mod.rs:4. -/
def UNIT_CODE : UInt8 := 0
/-- dlhn/src/header/mod.rs:5. -/
def OPTIONAL_CODE : UInt8 := 1
/-- dlhn/src/header/mod.rs:6. -/
def BOOLEAN_CODE : UInt8 := 2
/-- dlhn/src/header/mod.rs:7. -/
def UINT8_CODE : UInt8 := 3
/-- dlhn/src/header/mod.rs:8. -/
def UINT16_CODE : UInt8 := 4
/-- dlhn/src/header/mod.rs:9. -/
def UINT32_CODE : UInt8 := 5
/-- dlhn/src/header/mod.rs:10. -/
def UINT64_CODE : UInt8 := 6
/-- dlhn/src/header/mod.rs:12. -/
def INT8_CODE : UInt8 := 8
/-- dlhn/src/header/mod.rs:13. -/
def INT16_CODE : UInt8 := 9
/-- dlhn/src/header/mod.rs:14. -/
def INT32_CODE : UInt8 := 10
/-- dlhn/src/header/mod.rs:15. -/
def INT64_CODE : UInt8 := 11
/-- dlhn/src/header/mod.rs:17. -/
def FLOAT32_CODE : UInt8 := 13
/-- dlhn/src/header/mod.rs:18. -/
def FLOAT64_CODE : UInt8 := 14
/-- dlhn/src/header/mod.rs:19. -/
def BIG_UINT_CODE : UInt8 := 15
/-- dlhn/src/header/mod.rs:20. -/
def BIG_INT_CODE : UInt8 := 16
/-- dlhn/src/header/mod.rs:21. -/
def BIG_DECIMAL_CODE : UInt8 := 17
/-- dlhn/src/header/mod.rs:22. -/
def STRING_CODE : UInt8 := 18
/-- dlhn/src/header/mod.rs:23. -/
def BINARY_CODE : UInt8 := 19
/-- dlhn/src/header/mod.rs:24. -/
def ARRAY_CODE : UInt8 := 20
/-- dlhn/src/header/mod.rs:25. -/
def TUPLE_CODE : UInt8 := 21
/-- dlhn/src/header/mod.rs:27. -/
def MAP_CODE : UInt8 := 23
/-- dlhn/src/header/mod.rs:28. -/
def ENUM_CODE : UInt8 := 24
/-- dlhn/src/header/mod.rs:29. -/
def DATE_CODE : UInt8 := 25
/-- dlhn/src/header/mod.rs:30. -/
def DATETIME_CODE : UInt8 := 26

/-- `writer.write_all(bs)?` with the error passed on. -/
def put (bs : List UInt8) : WProg IoErr := .writeAll bs id .skip

/-- The member count, dlhn/src/header/ser.rs:297-299: `inner.len() as u16`, which
truncates. -/
def putCount (n : Nat) : WProg IoErr :=
  put (slice (encodeU16 (UInt16.ofNat n) (Vector.replicate 3 0)))

mutual
/-- `Header::serialize`, dlhn/src/header/ser.rs:256-288 with `serialize_inner_box`
290-293 and `serialize_inner_vec` 295-304. The scalar arms call the
`SerializeHeader` impls of ser.rs:13-200, which write one code. Stack use is not
modelled here. -/
def serialize : Header → WProg IoErr
  | .unit => put [UNIT_CODE]
  | .optional inner => (put [OPTIONAL_CODE]).andThen (serialize inner)
  | .boolean => put [BOOLEAN_CODE]
  | .uint8 => put [UINT8_CODE]
  | .uint16 => put [UINT16_CODE]
  | .uint32 => put [UINT32_CODE]
  | .uint64 => put [UINT64_CODE]
  | .int8 => put [INT8_CODE]
  | .int16 => put [INT16_CODE]
  | .int32 => put [INT32_CODE]
  | .int64 => put [INT64_CODE]
  | .float32 => put [FLOAT32_CODE]
  | .float64 => put [FLOAT64_CODE]
  | .bigUInt => put [BIG_UINT_CODE]
  | .bigInt => put [BIG_INT_CODE]
  | .bigDecimal => put [BIG_DECIMAL_CODE]
  | .string => put [STRING_CODE]
  | .binary => put [BINARY_CODE]
  | .array inner => (put [ARRAY_CODE]).andThen (serialize inner)
  | .tuple inner =>
    (put [TUPLE_CODE]).andThen ((putCount inner.length).andThen (serializeAll inner))
  | .map inner => (put [MAP_CODE]).andThen (serialize inner)
  | .enum inner =>
    (put [ENUM_CODE]).andThen ((putCount inner.length).andThen (serializeAll inner))
  | .date => put [DATE_CODE]
  | .dateTime => put [DATETIME_CODE]
/-- `for v in inner { v.serialize(writer)? }`, dlhn/src/header/ser.rs:300-302. -/
def serializeAll : List Header → WProg IoErr
  | [] => .skip
  | h :: hs => (serialize h).andThen (serializeAll hs)
end

/-- Serializing into a `Vec<u8>`. -/
def toVec (h : Header) : List UInt8 × Outcome IoErr Unit := h.serialize.exec

/-- `for _ in 0..size { vec.push(..?) }`, dlhn/src/header/de.rs:54-56, 71-73. -/
def replicateM {ε α : Type} : Nat → Prog ε α → Prog ε (List α)
  | 0, _ => pure []
  | n + 1, p => do
    let a ← p
    let as ← replicateM n p
    pure (a :: as)

/-- `deserialize_header`, dlhn/src/header/de.rs:10-77. `size` is
`size_of::<Header>()`, and the last argument is the number of nested calls the
stack still has room for. Growth of the vectors beyond `with_capacity` does not
occur; the `Box` allocations are not modelled. -/
def deserialize (size : Nat) : Nat → Prog IoErr Header
  | 0 => .done (.panic .stackOverflow)
  | depth + 1 => .readExact 1 id fun buf =>
    let code := buf[0]
    if code = UNIT_CODE then pure .unit
    else if code = OPTIONAL_CODE then do
      let inner ← deserialize size depth
      pure (.optional inner)
    else if code = BOOLEAN_CODE then pure .boolean
    else if code = UINT8_CODE then pure .uint8
    else if code = UINT16_CODE then pure .uint16
    else if code = UINT32_CODE then pure .uint32
    else if code = UINT64_CODE then pure .uint64
    else if code = INT8_CODE then pure .int8
    else if code = INT16_CODE then pure .int16
    else if code = INT32_CODE then pure .int32
    else if code = INT64_CODE then pure .int64
    else if code = FLOAT32_CODE then pure .float32
    else if code = FLOAT64_CODE then pure .float64
    else if code = BIG_UINT_CODE then pure .bigUInt
    else if code = BIG_INT_CODE then pure .bigInt
    else if code = BIG_DECIMAL_CODE then pure .bigDecimal
    else if code = STRING_CODE then pure .string
    else if code = BINARY_CODE then pure .binary
    else if code = ARRAY_CODE then do
      let inner ← deserialize size depth
      pure (.array inner)
    else if code = TUPLE_CODE then do
      let n ← decodeU16
      .alloc (n.toNat * size) do
        let vec ← replicateM n.toNat (deserialize size depth)
        pure (.tuple vec)
    else if code = MAP_CODE then do
      let inner ← deserialize size depth
      pure (.map inner)
    else if code = ENUM_CODE then do
      let n ← decodeU16
      .alloc (n.toNat * size) do
        let buf ← replicateM n.toNat (deserialize size depth)
        pure (.enum buf)
    else if code = DATE_CODE then pure .date
    else if code = DATETIME_CODE then pure .dateTime
    else .done (.err .invalidData)

end Header
end Dlhn
