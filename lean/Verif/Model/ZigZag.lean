/-!
# ZigZag

Transcription of dlhn/src/zigzag.rs. `>>>` on Lean's signed types is the
arithmetic shift, like `>>` on Rust's signed integers; `as` casts between
equal-width types keep the bits.
-/
namespace Dlhn.ZigZag

/-- `<i64 as ZigZag<u64>>::encode_zigzag`, dlhn/src/zigzag.rs:20-22. -/
def encodeI64 (self : Int64) : UInt64 := ((self <<< 1) ^^^ (self >>> 63)).toUInt64
/-- `<i64 as ZigZag<u64>>::decode_zigzag`, dlhn/src/zigzag.rs:24-26. -/
def decodeI64 (value : UInt64) : Int64 := (value >>> 1).toInt64 ^^^ (-(value.toInt64 &&& 1))

/-- `<i32 as ZigZag<u32>>::encode_zigzag`, dlhn/src/zigzag.rs:30-32. -/
def encodeI32 (self : Int32) : UInt32 := ((self <<< 1) ^^^ (self >>> 31)).toUInt32
/-- `<i32 as ZigZag<u32>>::decode_zigzag`, dlhn/src/zigzag.rs:34-36. -/
def decodeI32 (value : UInt32) : Int32 := (value >>> 1).toInt32 ^^^ (-(value.toInt32 &&& 1))

/-- `<i16 as ZigZag<u16>>::encode_zigzag`, dlhn/src/zigzag.rs:40-42. -/
def encodeI16 (self : Int16) : UInt16 := ((self <<< 1) ^^^ (self >>> 15)).toUInt16
/-- `<i16 as ZigZag<u16>>::decode_zigzag`, dlhn/src/zigzag.rs:44-46. -/
def decodeI16 (value : UInt16) : Int16 := (value >>> 1).toInt16 ^^^ (-(value.toInt16 &&& 1))

/-- `<i8 as ZigZag<u8>>::encode_zigzag`, dlhn/src/zigzag.rs:50-52. -/
def encodeI8 (self : Int8) : UInt8 := ((self <<< 1) ^^^ (self >>> 7)).toUInt8
/-- `<i8 as ZigZag<u8>>::decode_zigzag`, dlhn/src/zigzag.rs:54-56. -/
def decodeI8 (value : UInt8) : Int8 := (value >>> 1).toInt8 ^^^ (-(value.toInt8 &&& 1))

end Dlhn.ZigZag
