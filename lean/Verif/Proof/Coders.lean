import Verif.Proof.Varint
/-! # The integer coders on any buffer, and the 8-bit one -/
namespace Dlhn.PrefixVarint

open Spec

theorem slice_set {n : Nat} (a b : Vector UInt8 n) (k : Nat) (h : ∀ i, (hi : i < n) → i < k → a[i] = b[i]) :
    slice (a, k) = slice (b, k) := by
  simp only [slice]
  apply List.ext_getElem
  · simp
  · intro i h1 h2
    simp at h1
    simp only [List.getElem_take, Vector.getElem_toList]
    exact h i (by omega) (by omega)

theorem encodeU16_buffer (v : UInt16) (a b : Vector UInt8 3) :
    slice (encodeU16 v a) = slice (encodeU16 v b) := by
  simp only [encodeU16]
  split
  · refine slice_set _ _ _ fun i hi hk => ?_
    simp only [Vector.getElem_set]
    repeat' split
    all_goals first | rfl | omega
  split <;>
  · refine slice_set _ _ _ fun i hi hk => ?_
    simp only [Vector.getElem_set]
    repeat' split
    all_goals first | rfl | omega
theorem encodeU32_buffer (v : UInt32) (a b : Vector UInt8 5) :
    slice (encodeU32 v a) = slice (encodeU32 v b) := by
  simp only [encodeU32]
  repeat' split
  all_goals
    refine slice_set _ _ _ fun i hi hk => ?_
    simp only [Vector.getElem_set]
    repeat' split
    all_goals first | rfl | omega
theorem encodeU64_buffer (v : UInt64) (a b : Vector UInt8 9) :
    slice (encodeU64 v a) = slice (encodeU64 v b) := by
  simp only [encodeU64]
  repeat' split
  all_goals
    refine slice_set _ _ _ fun i hi hk => ?_
    simp only [Vector.getElem_set]
    repeat' split
    all_goals first | rfl | omega

theorem slice_encodeU8 (v : UInt8) (buf : Vector UInt8 2) :
    slice (encodeU8 v buf) = if v.toNat < 128 then [v] else [128, v] := by
  have h7 : v < ((1 : UInt8) <<< 7) ↔ v.toNat < 128 := by
    have : ((1 : UInt8) <<< 7) = 128 := by decide
    rw [this, UInt8.lt_iff_toNat_lt]; rfl
  obtain ⟨⟨l⟩, hl⟩ := buf
  match l, hl with
  | [a, b], _ =>
    unfold encodeU8
    by_cases h : v.toNat < 128
    · rw [if_pos (h7.mpr h), if_pos h]; rfl
    · rw [if_neg (fun hc => h (h7.mp hc)), if_neg h]; rfl

theorem exec_decodeU8 (t : Target) (fin : Ending) (v : UInt8) (rest : List UInt8) :
    Prog.exec t fin decodeU8 ((if v.toNat < 128 then [v] else [128, v]) ++ rest) = .ok (v, rest) := by
  have hp : v < 128 ↔ v.toNat < 128 := by rw [UInt8.lt_iff_toNat_lt]; rfl
  unfold decodeU8
  by_cases h : v.toNat < 128
  · rw [if_pos h, Prog.bind_eq, Prog.exec_bind, List.cons_append, exec_decodePrefix, Prog.next_ok,
      if_pos (hp.mpr h)]
    rfl
  · rw [if_neg h, Prog.bind_eq, Prog.exec_bind, List.cons_append, exec_decodePrefix, Prog.next_ok,
      if_neg (by decide)]
    rfl

end Dlhn.PrefixVarint
