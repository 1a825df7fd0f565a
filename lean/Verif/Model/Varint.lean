import Verif.Model.Reader
/-!
# Prefix varints

Transcription of dlhn/src/prefix_varint.rs (dlhn_derive/src/prefix_varint.rs is
an identical copy). `&mut [u8; N]` buffers are `Vector UInt8 N`, passed in and
returned; the buffer comes from the caller, as in the Rust code.
-/
namespace Dlhn.PrefixVarint

/-- `u16::leading_zeros`. -/
def lz16 (v : UInt16) : Nat := v.toBitVec.clz.toNat
/-- `u32::leading_zeros`. -/
def lz32 (v : UInt32) : Nat := v.toBitVec.clz.toNat
/-- `u64::leading_zeros`. -/
def lz64 (v : UInt64) : Nat := v.toBitVec.clz.toNat
/-- `u8::leading_ones`. -/
def leadingOnes (b : UInt8) : Nat := (~~~b).toBitVec.clz.toNat

/-- `u16::from_le_bytes`. -/
def u16le (b0 b1 : UInt8) : UInt16 := b0.toUInt16 ||| (b1.toUInt16 <<< 8)
/-- `u32::from_le_bytes`. -/
def u32le (b0 b1 b2 b3 : UInt8) : UInt32 :=
  b0.toUInt32 ||| (b1.toUInt32 <<< 8) ||| (b2.toUInt32 <<< 16) ||| (b3.toUInt32 <<< 24)
/-- `u64::from_le_bytes`. -/
def u64le (b0 b1 b2 b3 b4 b5 b6 b7 : UInt8) : UInt64 :=
  b0.toUInt64 ||| (b1.toUInt64 <<< 8) ||| (b2.toUInt64 <<< 16) ||| (b3.toUInt64 <<< 24) |||
  (b4.toUInt64 <<< 32) ||| (b5.toUInt64 <<< 40) ||| (b6.toUInt64 <<< 48) ||| (b7.toUInt64 <<< 56)

/-- `decode_prefix`, dlhn/src/prefix_varint.rs:18-22. -/
def decodePrefix : Prog IoErr UInt8 :=
  .readExact 1 id fun buf => pure buf[0]

/-- `<u8 as PrefixVarint<2>>::encode_prefix_varint`, dlhn/src/prefix_varint.rs:27-36. -/
def encodeU8 (self : UInt8) (buf : Vector UInt8 2) : Vector UInt8 2 × Nat :=
  if self < ((1 : UInt8) <<< 7) then
    (buf.set 0 self, 1)
  else
    ((buf.set 0 0b1000_0000).set 1 self, 2)

/-- `<u8 as PrefixVarint<2>>::decode_prefix_varint`, dlhn/src/prefix_varint.rs:38-48. -/
def decodeU8 : Prog IoErr UInt8 := do
  let p ← decodePrefix
  if p < 128 then
    pure p
  else
    .readExact 1 id fun buf => pure buf[0]

/-- `<u16 as PrefixVarint<3>>::encode_prefix_varint`, dlhn/src/prefix_varint.rs:54-74. -/
def encodeU16 (self : UInt16) (buf : Vector UInt8 3) : Vector UInt8 3 × Nat :=
  let value := self
  let lz := lz16 value
  if lz ≤ 1 then
    -- buf[1..].copy_from_slice(value.to_le_bytes())
    (((buf.set 0 0b1100_0000).set 1 value.toUInt8).set 2 (value >>> 8).toUInt8, 3)
  else if lz ≤ 8 then
    let value := value <<< 2
    ((buf.set 0 ((value.toUInt8 >>> 2) ||| 128)).set 1 (value >>> 8).toUInt8, 2)
  else
    (buf.set 0 value.toUInt8, 1)

/-- `<u16 as PrefixVarint<3>>::decode_prefix_varint`, dlhn/src/prefix_varint.rs:76-92. -/
def decodeU16 : Prog IoErr UInt16 := do
  let p ← decodePrefix
  match leadingOnes p with
  | 0 => pure p.toUInt16
  | 1 => .readExact 1 id fun buf => pure ((p.toUInt16 &&& (0x3f : UInt16)) ||| (buf[0].toUInt16 <<< 6))
  | _ => .readExact 2 id fun buf => pure (u16le buf[0] buf[1])

/-- `<u32 as PrefixVarint<5>>::encode_prefix_varint`, dlhn/src/prefix_varint.rs:98-133. -/
def encodeU32 (self : UInt32) (buf : Vector UInt8 5) : Vector UInt8 5 × Nat :=
  let value := self
  let lz := lz32 value
  if lz ≤ 3 then
    (((((buf.set 0 0b1111_0000).set 1 value.toUInt8).set 2 (value >>> 8).toUInt8).set 3
      (value >>> 16).toUInt8).set 4 (value >>> 24).toUInt8, 5)
  else if lz ≤ 10 then
    let value := value <<< 4
    ((((buf.set 0 ((value.toUInt8 >>> 4) ||| 224)).set 1 (value >>> 8).toUInt8).set 2
      (value >>> 16).toUInt8).set 3 (value >>> 24).toUInt8, 4)
  else if lz ≤ 17 then
    let value := value <<< 3
    (((buf.set 0 ((value.toUInt8 >>> 3) ||| 192)).set 1 (value >>> 8).toUInt8).set 2
      (value >>> 16).toUInt8, 3)
  else if lz ≤ 24 then
    let value := value <<< 2
    ((buf.set 0 ((value.toUInt8 >>> 2) ||| 128)).set 1 (value >>> 8).toUInt8, 2)
  else
    (buf.set 0 value.toUInt8, 1)

/-- `<u32 as PrefixVarint<5>>::decode_prefix_varint`, dlhn/src/prefix_varint.rs:135-163. -/
def decodeU32 : Prog IoErr UInt32 := do
  let p ← decodePrefix
  match leadingOnes p with
  | 0 => pure p.toUInt32
  | 1 => .readExact 1 id fun buf => pure ((p.toUInt32 &&& (0x3f : UInt32)) ||| (buf[0].toUInt32 <<< 6))
  | 2 => .readExact 2 id fun buf =>
      pure ((p.toUInt32 &&& (0x1f : UInt32)) ||| ((u16le buf[0] buf[1]).toUInt32 <<< 5))
  | 3 => .readExact 3 id fun buf =>
      let v := buf[2].toUInt32
      let v := (v <<< 16) ||| (u16le buf[0] buf[1]).toUInt32
      pure ((p.toUInt32 &&& (0x0f : UInt32)) ||| (v <<< 4))
  | _ => .readExact 4 id fun buf => pure (u32le buf[0] buf[1] buf[2] buf[3])

/-- `<u64 as PrefixVarint<9>>::encode_prefix_varint`, dlhn/src/prefix_varint.rs:169-243. -/
def encodeU64 (self : UInt64) (buf : Vector UInt8 9) : Vector UInt8 9 × Nat :=
  let value := self
  let lz := lz64 value
  if lz ≤ 7 then
    (((((((((buf.set 0 255).set 1 value.toUInt8).set 2 (value >>> 8).toUInt8).set 3
      (value >>> 16).toUInt8).set 4 (value >>> 24).toUInt8).set 5 (value >>> 32).toUInt8).set 6
      (value >>> 40).toUInt8).set 7 (value >>> 48).toUInt8).set 8 (value >>> 56).toUInt8, 9)
  else if lz ≤ 14 then
    ((((((((buf.set 0 254).set 1 value.toUInt8).set 2 (value >>> 8).toUInt8).set 3
      (value >>> 16).toUInt8).set 4 (value >>> 24).toUInt8).set 5 (value >>> 32).toUInt8).set 6
      (value >>> 40).toUInt8).set 7 (value >>> 48).toUInt8, 8)
  else if lz ≤ 21 then
    let value := value <<< 7
    (((((((buf.set 0 ((value.toUInt8 >>> 7) ||| 252)).set 1 (value >>> 8).toUInt8).set 2
      (value >>> 16).toUInt8).set 3 (value >>> 24).toUInt8).set 4 (value >>> 32).toUInt8).set 5
      (value >>> 40).toUInt8).set 6 (value >>> 48).toUInt8, 7)
  else if lz ≤ 28 then
    let value := value <<< 6
    ((((((buf.set 0 ((value.toUInt8 >>> 6) ||| 248)).set 1 (value >>> 8).toUInt8).set 2
      (value >>> 16).toUInt8).set 3 (value >>> 24).toUInt8).set 4 (value >>> 32).toUInt8).set 5
      (value >>> 40).toUInt8, 6)
  else if lz ≤ 35 then
    let value := value <<< 5
    (((((buf.set 0 ((value.toUInt8 >>> 5) ||| 240)).set 1 (value >>> 8).toUInt8).set 2
      (value >>> 16).toUInt8).set 3 (value >>> 24).toUInt8).set 4 (value >>> 32).toUInt8, 5)
  else if lz ≤ 42 then
    let value := value <<< 4
    ((((buf.set 0 ((value.toUInt8 >>> 4) ||| 224)).set 1 (value >>> 8).toUInt8).set 2
      (value >>> 16).toUInt8).set 3 (value >>> 24).toUInt8, 4)
  else if lz ≤ 49 then
    let value := value <<< 3
    (((buf.set 0 ((value.toUInt8 >>> 3) ||| 192)).set 1 (value >>> 8).toUInt8).set 2
      (value >>> 16).toUInt8, 3)
  else if lz ≤ 56 then
    let value := value <<< 2
    ((buf.set 0 ((value.toUInt8 >>> 2) ||| 128)).set 1 (value >>> 8).toUInt8, 2)
  else
    (buf.set 0 value.toUInt8, 1)

/-- `<u64 as PrefixVarint<9>>::decode_prefix_varint`, dlhn/src/prefix_varint.rs:245-300. -/
def decodeU64 : Prog IoErr UInt64 := do
  let p ← decodePrefix
  match leadingOnes p with
  | 0 => pure p.toUInt64
  | 1 => .readExact 1 id fun buf => pure ((p.toUInt64 &&& (0x3f : UInt64)) ||| (buf[0].toUInt64 <<< 6))
  | 2 => .readExact 2 id fun buf =>
      pure ((p.toUInt64 &&& (0x1f : UInt64)) ||| ((u16le buf[0] buf[1]).toUInt64 <<< 5))
  | 3 => .readExact 3 id fun buf =>
      let v := buf[2].toUInt64
      let v := (v <<< 16) ||| (u16le buf[0] buf[1]).toUInt64
      pure ((p.toUInt64 &&& (0x0f : UInt64)) ||| (v <<< 4))
  | 4 => .readExact 4 id fun buf =>
      pure ((p.toUInt64 &&& (0x07 : UInt64)) ||| ((u32le buf[0] buf[1] buf[2] buf[3]).toUInt64 <<< 3))
  | 5 => .readExact 5 id fun buf =>
      let v := buf[4].toUInt64
      let v := (v <<< 32) ||| (u32le buf[0] buf[1] buf[2] buf[3]).toUInt64
      pure ((p.toUInt64 &&& (0x03 : UInt64)) ||| (v <<< 2))
  | 6 => .readExact 6 id fun buf =>
      let v := (u16le buf[4] buf[5]).toUInt64
      let v := (v <<< 32) ||| (u32le buf[0] buf[1] buf[2] buf[3]).toUInt64
      pure ((p.toUInt64 &&& (0x01 : UInt64)) ||| (v <<< 1))
  | 7 => .readExact 7 id fun buf =>
      -- buf[0] = prefix; reader.read_exact(&mut buf[1..8])
      pure (u64le p buf[0] buf[1] buf[2] buf[3] buf[4] buf[5] buf[6] >>> 8)
  | _ => .readExact 8 id fun buf =>
      pure (u64le buf[0] buf[1] buf[2] buf[3] buf[4] buf[5] buf[6] buf[7])

/-- `&buf[..size]` after encoding into a zeroed buffer: the bytes every caller
goes on to write (dlhn/src/prefix_varint.rs:11-15; dlhn/src/ser.rs:71-123). -/
def slice {n : Nat} (r : Vector UInt8 n × Nat) : List UInt8 := r.1.toList.take r.2

/-- `u8::encode_prefix_varint_vec`, dlhn/src/prefix_varint.rs:11-15. -/
def vecU8 (v : UInt8) : List UInt8 := slice (encodeU8 v (Vector.replicate 2 0))
/-- `u16::encode_prefix_varint_vec`, dlhn/src/prefix_varint.rs:11-15. -/
def vecU16 (v : UInt16) : List UInt8 := slice (encodeU16 v (Vector.replicate 3 0))
/-- `u32::encode_prefix_varint_vec`, dlhn/src/prefix_varint.rs:11-15. -/
def vecU32 (v : UInt32) : List UInt8 := slice (encodeU32 v (Vector.replicate 5 0))
/-- `u64::encode_prefix_varint_vec`, dlhn/src/prefix_varint.rs:11-15. -/
def vecU64 (v : UInt64) : List UInt8 := slice (encodeU64 v (Vector.replicate 9 0))

end Dlhn.PrefixVarint
