import Verif.Proof.Coders
import Verif.Proof.VarintSpec
import Verif.Proof.ZigZag
/-!
# C68: the integer coders by themselves

`encode_prefix_varint(v, &mut buf)` fills the front of a buffer of the caller and
returns a size; the bytes it stands for are the first `size` bytes of the buffer,
`slice (encodeU16 v buf)`. The derive crate has its own copy of these functions;
the two files are equal, so the theorems are about both. The 8-bit functions are
not used by the serializer or the deserializer.
-/
namespace Dlhn.Props

open Spec PrefixVarint ZigZag

/-- Whatever the buffer held before, the bytes are those of the encoding. -/
theorem C68_buffer :
    (∀ (v : UInt16) (buf : Vector UInt8 3), slice (encodeU16 v buf) = varint 16 v.toNat) ∧
    (∀ (v : UInt32) (buf : Vector UInt8 5), slice (encodeU32 v buf) = varint 32 v.toNat) ∧
    (∀ (v : UInt64) (buf : Vector UInt8 9), slice (encodeU64 v buf) = varint 64 v.toNat) ∧
    ∀ (v : UInt8) (buf : Vector UInt8 2),
      slice (encodeU8 v buf) = if v.toNat < 128 then [v] else [128, v] :=
  ⟨fun v buf => by rw [encodeU16_buffer v buf (Vector.replicate 3 0)]; exact vecU16_eq v,
   fun v buf => by rw [encodeU32_buffer v buf (Vector.replicate 5 0)]; exact vecU32_eq v,
   fun v buf => by rw [encodeU64_buffer v buf (Vector.replicate 9 0)]; exact vecU64_eq v,
   slice_encodeU8⟩

/-- The size returned is the number of bytes of the encoding, so it never exceeds
the buffer. -/
theorem C68_size :
    (∀ (v : UInt16) (buf : Vector UInt8 3), (encodeU16 v buf).2 = varintLen 16 v.toNat) ∧
    (∀ (v : UInt32) (buf : Vector UInt8 5), (encodeU32 v buf).2 = varintLen 32 v.toNat) ∧
    (∀ (v : UInt64) (buf : Vector UInt8 9), (encodeU64 v buf).2 = varintLen 64 v.toNat) ∧
    ∀ (v : UInt8) (buf : Vector UInt8 2), (encodeU8 v buf).2 = if v.toNat < 128 then 1 else 2 := by
  have key : ∀ {n : Nat} (r : Vector UInt8 n × Nat), r.2 ≤ n → (slice r).length = r.2 := by
    intro n r hr
    simp only [slice, List.length_take, Vector.length_toList]
    omega
  obtain ⟨h16, h32, h64, h8⟩ := C68_buffer
  refine ⟨fun v buf => ?_, fun v buf => ?_, fun v buf => ?_, fun v buf => ?_⟩
  · rw [← length_varint, ← h16 v buf, key]
    unfold encodeU16
    simp only
    repeat' split
    all_goals simp
  · rw [← length_varint, ← h32 v buf, key]
    unfold encodeU32
    simp only
    repeat' split
    all_goals simp
  · rw [← length_varint, ← h64 v buf, key]
    unfold encodeU64
    simp only
    repeat' split
    all_goals simp
  · have : (if v.toNat < 128 then 1 else 2) = (if v.toNat < 128 then [v] else [128, v]).length := by
      split <;> rfl
    rw [this, ← h8 v buf, key]
    unfold encodeU8
    split <;> simp

/-- The decoders invert the encoders, leaving what follows, for the four widths. -/
theorem C68_roundtrip (t : Target) (fin : Ending) (rest : List UInt8) :
    (∀ (v : UInt8) (buf : Vector UInt8 2),
      Prog.exec t fin decodeU8 (slice (encodeU8 v buf) ++ rest) = .ok (v, rest)) ∧
    (∀ (v : UInt16) (buf : Vector UInt8 3),
      Prog.exec t fin decodeU16 (slice (encodeU16 v buf) ++ rest) = .ok (v, rest)) ∧
    (∀ (v : UInt32) (buf : Vector UInt8 5),
      Prog.exec t fin decodeU32 (slice (encodeU32 v buf) ++ rest) = .ok (v, rest)) ∧
    ∀ (v : UInt64) (buf : Vector UInt8 9),
      Prog.exec t fin decodeU64 (slice (encodeU64 v buf) ++ rest) = .ok (v, rest) := by
  obtain ⟨h16, h32, h64, h8⟩ := C68_buffer
  refine ⟨fun v buf => ?_, fun v buf => ?_, fun v buf => ?_, fun v buf => ?_⟩
  · rw [h8]; exact exec_decodeU8 t fin v rest
  · rw [h16, exec_decodeU16, varintDecode_varint 16 _ (by simp) v.toNat_lt]
    simp [ofSpec]
  · rw [h32, exec_decodeU32, varintDecode_varint 32 _ (by simp) v.toNat_lt]
    simp [ofSpec]
  · rw [h64, exec_decodeU64, varintDecode_varint 64 _ (by simp) v.toNat_lt]
    simp [ofSpec]

/-- The signed coders number the integers 0, -1, 1, -2, 2, ..., and are inverse to
each other, for the four widths. -/
theorem C68_zigzag :
    (∀ x : Int8, (encodeI8 x).toNat = zigzag x.toInt ∧ decodeI8 (encodeI8 x) = x) ∧
    (∀ x : Int16, (encodeI16 x).toNat = zigzag x.toInt ∧ decodeI16 (encodeI16 x) = x) ∧
    (∀ x : Int32, (encodeI32 x).toNat = zigzag x.toInt ∧ decodeI32 (encodeI32 x) = x) ∧
    (∀ x : Int64, (encodeI64 x).toNat = zigzag x.toInt ∧ decodeI64 (encodeI64 x) = x) ∧
    (∀ n : UInt8, encodeI8 (decodeI8 n) = n) ∧ (∀ n : UInt16, encodeI16 (decodeI16 n) = n) ∧
    (∀ n : UInt32, encodeI32 (decodeI32 n) = n) ∧ ∀ n : UInt64, encodeI64 (decodeI64 n) = n :=
  ⟨fun x => ⟨encodeI8_spec x, decode_encodeI8 x⟩, fun x => ⟨encodeI16_spec x, decode_encodeI16 x⟩,
   fun x => ⟨encodeI32_spec x, decode_encodeI32 x⟩, fun x => ⟨encodeI64_spec x, decode_encodeI64 x⟩,
   encode_decodeI8, encode_decodeI16, encode_decodeI32, encode_decodeI64⟩

example : slice (encodeU16 300 #v[7, 8, 9]) = [0xac, 4] ∧ slice (encodeU8 200 #v[7, 8]) = [128, 200] ∧
    encodeI8 (-3) = 5 := by decide +kernel

end Dlhn.Props
