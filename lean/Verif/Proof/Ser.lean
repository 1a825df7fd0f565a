import Verif.Model.Ser
import Verif.Spec.Wire
import Verif.Proof.Writer
import Verif.Proof.VarintSpec
import Verif.Proof.ZigZag
/-! # The serializer writes the specified bytes -/
namespace Dlhn.Ser

open PrefixVarint Spec

theorem exec_emit (bs : List UInt8) : (emit bs).exec = (bs, .ok ()) := by
  simp [emit, WProg.exec, WProg.skip]

theorem exec_serU16 (v : UInt16) : (serU16 v).exec = (varint 16 v.toNat, .ok ()) := by
  have : slice (encodeU16 v (Vector.replicate 3 0)) = varint 16 v.toNat := vecU16_eq v
  rw [serU16, exec_emit, this]
theorem exec_serU32 (v : UInt32) : (serU32 v).exec = (varint 32 v.toNat, .ok ()) := by
  have : slice (encodeU32 v (Vector.replicate 5 0)) = varint 32 v.toNat := vecU32_eq v
  rw [serU32, exec_emit, this]
theorem exec_serU64 (v : UInt64) : (serU64 v).exec = (varint 64 v.toNat, .ok ()) := by
  have : slice (encodeU64 v (Vector.replicate 9 0)) = varint 64 v.toNat := vecU64_eq v
  rw [serU64, exec_emit, this]
theorem exec_serI16 (v : Int16) : (serI16 v).exec = (varint 16 (zigzag v.toInt), .ok ()) := by
  rw [← ZigZag.encodeI16_spec]; exact exec_serU16 _
theorem exec_serI32 (v : Int32) : (serI32 v).exec = (varint 32 (zigzag v.toInt), .ok ()) := by
  rw [← ZigZag.encodeI32_spec]; exact exec_serU32 _
theorem exec_serI64 (v : Int64) : (serI64 v).exec = (varint 64 (zigzag v.toInt), .ok ()) := by
  rw [← ZigZag.encodeI64_spec]; exact exec_serU64 _
theorem exec_serF32 (v : UInt32) : (serF32 v).exec = (leBytes 4 v.toNat, .ok ()) := by
  rw [serF32, exec_emit]
  simp [leBytes, ← UInt8.toNat_inj, Nat.shiftRight_eq_div_pow]
  omega
theorem exec_serF64 (v : UInt64) : (serF64 v).exec = (leBytes 8 v.toNat, .ok ()) := by
  rw [serF64, exec_emit]
  simp [leBytes, ← UInt8.toNat_inj, Nat.shiftRight_eq_div_pow]
  omega
theorem exec_serLen (n : Nat) (h : n < 2 ^ 64) : (serLen n).exec = (varint 64 n, .ok ()) := by
  rw [serLen, exec_serU64, UInt64.toNat_ofNat', Nat.mod_eq_of_lt h]
theorem exec_serStr (s : String) (h : (utf8 s).length < 2 ^ 64) :
    (serStr s).exec = (block (utf8 s), .ok ()) := by
  show ((serLen (utf8 s).length).andThen (emit (utf8 s))).exec = _
  rw [WProg.exec_andThen_ok (exec_serLen _ h), exec_emit]
  rfl
theorem exec_serBytes (bs : List UInt8) (h : bs.length < 2 ^ 64) :
    (serBytes bs).exec = (block bs, .ok ()) := by
  rw [serBytes, WProg.exec_andThen_ok (exec_serLen _ h), exec_emit]
  rfl
theorem exec_serHint (o : Option Nat) (h : ∀ n, o = some n → n < 2 ^ 64) :
    (serHint o).exec = (lengthPrefix o, .ok ()) := by
  cases o with
  | none => rfl
  | some n => exact exec_serLen n (h n rfl)

theorem length_utf8_singleton (c : Char) : (utf8 (String.singleton c)).length ≤ 4 := by
  have h : (utf8 (String.singleton c)).length = (String.singleton c).utf8ByteSize := rfl
  rw [h, String.utf8ByteSize_singleton]
  exact c.utf8Size_le_four

theorem exec_serChar (c : Char) : (serChar c).exec = (block (utf8 (String.singleton c)), .ok ()) := by
  have := length_utf8_singleton c
  exact exec_serStr _ (by omega)

theorem exec_serKey (k : Val) (h : IsKey k) (hf : Fits k) : (serKey k).exec = (wire k, .ok ()) := by
  cases k <;> simp only [IsKey] at h
  exact exec_serStr _ hf

mutual
theorem exec_ser : (v : Val) → Serializable v → Fits v → (ser v).exec = (wire v, .ok ())
  | .bool b, _, _ => by cases b <;> simp [ser, serBool, wire, exec_emit]
  | .i8 v, _, _ => by simp [ser, serI8, wire, exec_emit]
  | .i16 v, _, _ => by simp [ser, wire, exec_serI16]
  | .i32 v, _, _ => by simp [ser, wire, exec_serI32]
  | .i64 v, _, _ => by simp [ser, wire, exec_serI64]
  | .i128 v, h, _ => by simp [Serializable] at h
  | .u8 v, _, _ => by simp [ser, serU8, wire, exec_emit]
  | .u16 v, _, _ => by simp [ser, wire, exec_serU16]
  | .u32 v, _, _ => by simp [ser, wire, exec_serU32]
  | .u64 v, _, _ => by simp [ser, wire, exec_serU64]
  | .u128 v, h, _ => by simp [Serializable] at h
  | .f32 v, _, _ => by simp [ser, wire, exec_serF32]
  | .f64 v, _, _ => by simp [ser, wire, exec_serF64]
  | .char c, _, _ => by simp [ser, wire, exec_serChar]
  | .str s, _, hf => by simp only [Fits] at hf; simp [ser, wire, exec_serStr s hf]
  | .bytes bs, _, hf => by simp only [Fits] at hf; simp [ser, wire, exec_serBytes bs hf]
  | .none, _, _ => by simp [ser, wire, exec_emit]
  | .some v, h, hf => by
    simp only [Serializable] at h
    simp only [Fits] at hf
    rw [ser, WProg.exec_andThen_ok (exec_emit _), exec_ser v h hf, wire]
    rfl
  | .unit, _, _ => by simp [ser, wire]
  | .unitStruct _, _, _ => by simp [ser, wire]
  | .unitVariant _ i _, _, _ => by simp [ser, wire, exec_serU32]
  | .newtypeStruct _ v, h, hf => by
    simp only [Serializable] at h
    simp only [Fits] at hf
    rw [ser, wire, exec_ser v h hf]
  | .newtypeVariant _ i _ v, h, hf => by
    simp only [Serializable] at h
    simp only [Fits] at hf
    rw [ser, WProg.exec_andThen_ok (exec_serU32 i), exec_ser v h hf, wire]
  | .seq o vs, h, hf => by
    simp only [Serializable] at h
    simp only [Fits] at hf
    rw [ser, WProg.exec_andThen_ok (exec_serHint o hf.1), exec_serAll vs h hf.2, wire]
  | .tuple vs, h, hf => by
    simp only [Serializable] at h
    simp only [Fits] at hf
    rw [ser, exec_serAll vs h hf, wire]
  | .tupleStruct _ vs, h, hf => by
    simp only [Serializable] at h
    simp only [Fits] at hf
    rw [ser, exec_serAll vs h hf, wire]
  | .tupleVariant _ i _ vs, h, hf => by
    simp only [Serializable] at h
    simp only [Fits] at hf
    rw [ser, WProg.exec_andThen_ok (exec_serU32 i), exec_serAll vs h hf, wire]
  | .map o es, h, hf => by
    simp only [Serializable] at h
    simp only [Fits] at hf
    rw [ser, WProg.exec_andThen_ok (exec_serHint o hf.1), exec_serEntries es h hf.2, wire]
  | .struct _ fs, h, hf => by
    simp only [Serializable] at h
    simp only [Fits] at hf
    rw [ser, exec_serFields fs h hf, wire]
  | .structVariant _ i _ fs, h, hf => by
    simp only [Serializable] at h
    simp only [Fits] at hf
    rw [ser, WProg.exec_andThen_ok (exec_serU32 i), exec_serFields fs h hf, wire]
theorem exec_serAll : (vs : List Val) → AllSerializable vs → AllFit vs →
    (serAll vs).exec = (wireAll vs, .ok ())
  | [], _, _ => by simp [serAll, wireAll]
  | v :: vs, h, hf => by
    simp only [AllSerializable] at h
    simp only [AllFit] at hf
    rw [serAll, WProg.exec_andThen_ok (exec_ser v h.1 hf.1), exec_serAll vs h.2 hf.2, wireAll]
theorem exec_serEntries : (es : List (Val × Val)) → EntriesSerializable es → EntriesFit es →
    (serEntries es).exec = (wireEntries es, .ok ())
  | [], _, _ => by simp [serEntries, wireEntries]
  | (k, v) :: es, h, hf => by
    simp only [EntriesSerializable] at h
    simp only [EntriesFit] at hf
    rw [serEntries, WProg.exec_andThen_ok (exec_serKey k h.1 hf.1),
      WProg.exec_andThen_ok (exec_ser v h.2.1 hf.2.1), exec_serEntries es h.2.2 hf.2.2, wireEntries]
    simp
theorem exec_serFields : (fs : List (String × Val)) → FieldsSerializable fs → FieldsFit fs →
    (serFields fs).exec = (wireFields fs, .ok ())
  | [], _, _ => by simp [serFields, wireFields]
  | (_, v) :: fs, h, hf => by
    simp only [FieldsSerializable] at h
    simp only [FieldsFit] at hf
    rw [serFields, WProg.exec_andThen_ok (exec_ser v h.1 hf.1), exec_serFields fs h.2 hf.2, wireFields]
end

end Dlhn.Ser
