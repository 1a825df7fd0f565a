import Verif.Proof.Varint
/-! # Facts about the arithmetic specification of varints -/
namespace Dlhn.Spec

open PrefixVarint (groups_le_iff groups_pos)

@[simp] theorem length_leBytes (n v : Nat) : (leBytes n v).length = n := by
  induction n generalizing v with
  | zero => rfl
  | succ n ih => simp [leBytes, ih]

theorem leValue_leBytes (n v : Nat) : leValue (leBytes n v) = v % 256 ^ n := by
  induction n generalizing v with
  | zero => simp [leBytes, leValue, Nat.mod_one]
  | succ n ih =>
    simp only [leBytes, leValue, ih, UInt8.toNat_ofNat', Nat.reducePow]
    rw [Nat.pow_succ', Nat.mod_mul, Nat.mod_mod]

theorem leValue_lt (bs : List UInt8) : leValue bs < 256 ^ bs.length := by
  induction bs with
  | nil => simp [leValue]
  | cons b bs ih =>
    have := b.toNat_lt
    simp only [leValue, List.length_cons, Nat.pow_succ]
    omega

theorem leBytes_leValue (bs : List UInt8) : leBytes bs.length (leValue bs) = bs := by
  induction bs with
  | nil => rfl
  | cons b bs ih =>
    have := b.toNat_lt
    simp only [leValue, List.length_cons, leBytes]
    rw [show (b.toNat + 256 * leValue bs) / 256 = leValue bs by omega, ih]
    congr 1
    rw [← UInt8.toNat_inj]
    simp

theorem leadingOnes_char (b : UInt8) (j : Nat) (hj : j ≤ 8) (h1 : 256 - 2 ^ (8 - j) ≤ b.toNat)
    (h2 : j < 8 → b.toNat < 256 - 2 ^ (7 - j)) : leadingOnes b = j := by
  have h : ∀ b : BitVec 8, ∀ j : Fin 9, 256 - 2 ^ (8 - j.val) ≤ b.toNat →
      (j.val < 8 → b.toNat < 256 - 2 ^ (7 - j.val)) → leadingOnes ⟨b⟩ = j := by
    decide +kernel
  exact h b.toBitVec ⟨j, by omega⟩ h1 h2

theorem length_varint (w v : Nat) : (varint w v).length = varintLen w v := by
  have := groups_pos v
  simp only [varint, varintLen]
  split <;> simp <;> omega

theorem varintLen_pos (w v : Nat) : 1 ≤ varintLen w v := by
  have := groups_pos v
  simp only [varintLen]
  omega

attribute [local irreducible] leadingOnes

/-- Decoding undoes encoding, whatever follows. -/
theorem varintDecode_varint (w v : Nat) (hw : w = 16 ∨ w = 32 ∨ w = 64) (hv : v < 2 ^ w)
    (rest : List UInt8) : varintDecode w (varint w v ++ rest) = some (v, rest) := by
  have hpos := groups_pos v
  have hw8 : w / 8 ≤ 8 := by rcases hw with h | h | h <;> subst h <;> omega
  simp only [varint]
  split
  · rename_i hk
    have hlt : v < 2 ^ (7 * groups v) := by
      have := (groups_le_iff (groups v - 1) v).mp (by omega)
      rwa [show groups v - 1 + 1 = groups v by omega] at this
    generalize groups v = k at *
    generalize hW : w / 8 = W at *
    have hlo : leadingOnes (UInt8.ofNat (256 - 2 ^ (9 - k) + v % 2 ^ (8 - k))) = k - 1 := by
      apply leadingOnes_char
      · omega
      · have hk8 : k ≤ 8 := by omega
        have : k = 1 ∨ k = 2 ∨ k = 3 ∨ k = 4 ∨ k = 5 ∨ k = 6 ∨ k = 7 ∨ k = 8 := by omega
        rcases this with h | h | h | h | h | h | h | h <;> subst h <;> simp <;> omega
      · have : k = 1 ∨ k = 2 ∨ k = 3 ∨ k = 4 ∨ k = 5 ∨ k = 6 ∨ k = 7 ∨ k = 8 := by omega
        rcases this with h | h | h | h | h | h | h | h <;> subst h <;> simp <;> omega
    simp only [List.cons_append, varintDecode, extraBytes, hlo, hW,
      Nat.min_eq_left (show k - 1 ≤ W by omega)]
    rw [if_neg (by simp), if_pos (by omega), List.take_append_of_le_length (by simp),
      List.drop_append_of_le_length (by simp), List.take_of_length_le (by simp),
      List.drop_of_length_le (by simp), leValue_leBytes]
    have : k = 1 ∨ k = 2 ∨ k = 3 ∨ k = 4 ∨ k = 5 ∨ k = 6 ∨ k = 7 ∨ k = 8 := by omega
    rcases this with h | h | h | h | h | h | h | h <;> subst h <;> simp <;> omega
  · rename_i hk
    have hlo : leadingOnes (UInt8.ofNat (256 - 2 ^ (8 - w / 8))) = w / 8 := by
      apply leadingOnes_char
      · omega
      · rcases hw with h | h | h <;> subst h <;> simp
      · rcases hw with h | h | h <;> subst h <;> simp
    simp only [List.cons_append, varintDecode, extraBytes, hlo, Nat.min_self, Nat.lt_irrefl, if_false]
    rw [if_neg (by simp), List.take_append_of_le_length (by simp),
      List.drop_append_of_le_length (by simp), List.take_of_length_le (by simp),
      List.drop_of_length_le (by simp), leValue_leBytes]
    rw [Nat.mod_eq_of_lt]
    · simp
    · rcases hw with h | h | h <;> subst h <;> simpa using hv

theorem pow256 (n : Nat) : 256 ^ n = 2 ^ (8 * n) := by
  rw [show (256 : Nat) = 2 ^ 8 from rfl, ← Nat.pow_mul]

/-- Whatever is decoded fits the width, was not encoded shorter than the
encoder would, and the unread part is the input without the announced bytes. -/
theorem varintDecode_bound (w : Nat) (hw : w = 16 ∨ w = 32 ∨ w = 64) (b : UInt8)
    (bs rest : List UInt8) (v : Nat) (h : varintDecode w (b :: bs) = some (v, rest)) :
    v < 2 ^ w ∧ extraBytes w b ≤ bs.length ∧ rest = bs.drop (extraBytes w b) ∧
      varintLen w v ≤ 1 + extraBytes w b := by
  have hw8 : w / 8 ≤ 8 ∧ 8 * (w / 8) = w := by rcases hw with h | h | h <;> subst h <;> omega
  simp only [varintDecode] at h
  split at h
  · simp at h
  · rename_i hlen
    have hn : extraBytes w b ≤ w / 8 := by simp only [extraBytes]; omega
    have hv2 := leValue_lt (bs.take (extraBytes w b))
    rw [List.length_take, Nat.min_eq_left (by omega), pow256] at hv2
    split at h
    · rename_i hlo
      have hE : extraBytes w b = leadingOnes b := by simp only [extraBytes]; omega
      simp only [Option.some.injEq, Prod.mk.injEq] at h
      generalize extraBytes w b = n at *
      obtain ⟨rfl, rfl⟩ := h
      have key : b.toNat % 2 ^ (7 - n) + 2 ^ (7 - n) * leValue (bs.take n) < 2 ^ (7 * (n + 1)) := by
        have h1 : b.toNat % 2 ^ (7 - n) < 2 ^ (7 - n) := Nat.mod_lt _ (Nat.two_pow_pos _)
        have h2 : 2 ^ (7 - n) * (leValue (bs.take n) + 1) ≤ 2 ^ (7 - n) * 2 ^ (8 * n) :=
          Nat.mul_le_mul_left _ hv2
        rw [← Nat.pow_add, show 7 - n + 8 * n = 7 * (n + 1) by omega] at h2
        rw [Nat.mul_add, Nat.mul_one] at h2
        omega
      refine ⟨Nat.lt_of_lt_of_le key (Nat.pow_le_pow_right (by omega) (by omega)), by omega, rfl, ?_⟩
      have := (groups_le_iff n _).mpr key
      simp only [varintLen]
      omega
    · rename_i hlo
      have hE : extraBytes w b = w / 8 := by simp only [extraBytes]; omega
      simp only [Option.some.injEq, Prod.mk.injEq] at h
      obtain ⟨rfl, rfl⟩ := h
      refine ⟨Nat.lt_of_lt_of_le hv2 (Nat.pow_le_pow_right (by omega) (by omega)), by omega, rfl, ?_⟩
      simp only [varintLen, hE]
      omega

theorem varintDecode_nil (w : Nat) : varintDecode w [] = none := rfl

theorem varintDecode_none_iff (w : Nat) (b : UInt8) (bs : List UInt8) :
    varintDecode w (b :: bs) = none ↔ bs.length < extraBytes w b := by
  simp only [varintDecode]
  split
  · simp [*]
  · split <;> simp [*] <;> omega

end Dlhn.Spec
