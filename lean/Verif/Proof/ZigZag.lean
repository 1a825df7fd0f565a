import Verif.Model.ZigZag
import Verif.Spec.ZigZag
/-! # The zigzag code computes the enumeration -/
namespace Dlhn.ZigZag

open Spec (zigzag unzigzag)

theorem unzigzag_zigzag (x : Int) : unzigzag (zigzag x) = x := by
  simp only [zigzag, unzigzag]
  split <;> split <;> omega

theorem zigzag_unzigzag (n : Nat) : zigzag (unzigzag n) = n := by
  simp only [unzigzag]
  split <;> simp only [zigzag] <;> split <;> omega

theorem bv_encode {w : Nat} (hw : 0 < w) (x : BitVec w) :
    ((x <<< 1) ^^^ x.sshiftRight (w - 1)).toNat = zigzag x.toInt := by
  have hx := x.isLt
  have hp : 2 ^ w = 2 * 2 ^ (w - 1) := by
    rw [← Nat.pow_succ', Nat.succ_eq_add_one, Nat.sub_add_cancel hw]
  cases hm : x.msb with
  | false =>
    have h1 : x.sshiftRight (w - 1) = 0#w := by
      rw [BitVec.sshiftRight_eq_of_msb_false hm]
      apply BitVec.eq_of_toNat_eq
      have := BitVec.msb_eq_false_iff_two_mul_lt.mp hm
      simp [Nat.shiftRight_eq_div_pow]
      omega
    have h2 := BitVec.msb_eq_false_iff_two_mul_lt.mp hm
    rw [h1, BitVec.xor_zero, BitVec.toNat_shiftLeft, Nat.shiftLeft_eq,
      BitVec.toInt_eq_toNat_of_msb hm]
    simp only [zigzag]
    rw [if_pos (by omega), Nat.mod_eq_of_lt (by omega)]
    omega
  | true =>
    have h2 := BitVec.msb_eq_true_iff_two_mul_ge.mp hm
    have h1 : x.sshiftRight (w - 1) = BitVec.allOnes w := by
      rw [BitVec.sshiftRight_eq_of_msb_true hm]
      apply BitVec.eq_of_toNat_eq
      have : 2 ^ w - 1 - x.toNat < 2 ^ (w - 1) := by omega
      simp [Nat.shiftRight_eq_div_pow, Nat.div_eq_of_lt this]
    rw [h1, BitVec.xor_allOnes, BitVec.toNat_not, BitVec.toNat_shiftLeft, Nat.shiftLeft_eq]
    rw [BitVec.toInt_eq_toNat_cond]
    rw [if_neg (by omega)]
    simp only [zigzag]
    rw [if_neg (by omega)]
    rw [show x.toNat * 2 ^ 1 = (x.toNat * 2 - 2 ^ w) + 2 ^ w by omega, Nat.add_mod_right,
      Nat.mod_eq_of_lt (by omega)]
    omega

theorem bv_decode {w : Nat} (hw : 1 < w) (v : BitVec w) :
    ((v >>> 1) ^^^ (-(v &&& 1#w))).toInt = unzigzag v.toNat := by
  have hv := v.isLt
  have hp : 2 ^ w = 2 * 2 ^ (w - 1) := by
    rw [← Nat.pow_succ', Nat.succ_eq_add_one, Nat.sub_add_cancel (by omega)]
  have hone : 1 % 2 ^ w = 1 := Nat.mod_eq_of_lt (Nat.one_lt_two_pow (by omega))
  have hand : (v &&& 1#w).toNat = v.toNat % 2 := by
    simp [hone]
  by_cases h0 : v.toNat % 2 = 0
  · have h1 : v &&& 1#w = 0#w := by
      apply BitVec.eq_of_toNat_eq; rw [hand, h0]; simp
    rw [h1, BitVec.neg_zero, BitVec.xor_zero, BitVec.toInt_eq_toNat_cond]
    simp only [unzigzag, h0, if_true, BitVec.toNat_ushiftRight, Nat.shiftRight_eq_div_pow]
    rw [if_pos (by omega)]
  · have h1 : v &&& 1#w = 1#w := by
      apply BitVec.eq_of_toNat_eq; rw [hand]; simp only [BitVec.toNat_ofNat, hone]; omega
    rw [h1, BitVec.neg_one_eq_allOnes, BitVec.xor_allOnes, BitVec.toInt_eq_toNat_cond]
    simp only [unzigzag, h0, if_false, BitVec.toNat_not, BitVec.toNat_ushiftRight,
      Nat.shiftRight_eq_div_pow]
    rw [if_neg (by omega)]
    omega

theorem encodeI64_spec (x : Int64) : (encodeI64 x).toNat = zigzag x.toInt :=
  bv_encode (by omega) x.toBitVec
theorem encodeI32_spec (x : Int32) : (encodeI32 x).toNat = zigzag x.toInt :=
  bv_encode (by omega) x.toBitVec
theorem encodeI16_spec (x : Int16) : (encodeI16 x).toNat = zigzag x.toInt :=
  bv_encode (by omega) x.toBitVec
theorem encodeI8_spec (x : Int8) : (encodeI8 x).toNat = zigzag x.toInt :=
  bv_encode (by omega) x.toBitVec

theorem decodeI64_spec (v : UInt64) : (decodeI64 v).toInt = unzigzag v.toNat :=
  bv_decode (by omega) v.toBitVec
theorem decodeI32_spec (v : UInt32) : (decodeI32 v).toInt = unzigzag v.toNat :=
  bv_decode (by omega) v.toBitVec
theorem decodeI16_spec (v : UInt16) : (decodeI16 v).toInt = unzigzag v.toNat :=
  bv_decode (by omega) v.toBitVec
theorem decodeI8_spec (v : UInt8) : (decodeI8 v).toInt = unzigzag v.toNat :=
  bv_decode (by omega) v.toBitVec

@[simp] theorem decode_encodeI64 (x : Int64) : decodeI64 (encodeI64 x) = x := by
  rw [← Int64.toInt_inj, decodeI64_spec, encodeI64_spec, unzigzag_zigzag]
@[simp] theorem decode_encodeI32 (x : Int32) : decodeI32 (encodeI32 x) = x := by
  rw [← Int32.toInt_inj, decodeI32_spec, encodeI32_spec, unzigzag_zigzag]
@[simp] theorem decode_encodeI16 (x : Int16) : decodeI16 (encodeI16 x) = x := by
  rw [← Int16.toInt_inj, decodeI16_spec, encodeI16_spec, unzigzag_zigzag]
@[simp] theorem decode_encodeI8 (x : Int8) : decodeI8 (encodeI8 x) = x := by
  rw [← Int8.toInt_inj, decodeI8_spec, encodeI8_spec, unzigzag_zigzag]

@[simp] theorem encode_decodeI64 (v : UInt64) : encodeI64 (decodeI64 v) = v := by
  rw [← UInt64.toNat_inj, encodeI64_spec, decodeI64_spec, zigzag_unzigzag]
@[simp] theorem encode_decodeI32 (v : UInt32) : encodeI32 (decodeI32 v) = v := by
  rw [← UInt32.toNat_inj, encodeI32_spec, decodeI32_spec, zigzag_unzigzag]
@[simp] theorem encode_decodeI16 (v : UInt16) : encodeI16 (decodeI16 v) = v := by
  rw [← UInt16.toNat_inj, encodeI16_spec, decodeI16_spec, zigzag_unzigzag]
@[simp] theorem encode_decodeI8 (v : UInt8) : encodeI8 (decodeI8 v) = v := by
  rw [← UInt8.toNat_inj, encodeI8_spec, decodeI8_spec, zigzag_unzigzag]

end Dlhn.ZigZag
