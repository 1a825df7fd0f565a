import Verif.Spec.BigNum
import Verif.Proof.Records
/-! # Big numbers: digits, two's complement, decimal normal form -/
namespace Dlhn.Num

open Spec

/-! ## Unsigned -/

theorem fromBytesLe_eq (bs : List UInt8) : fromBytesLe bs = leValue bs := by
  induction bs with
  | nil => rfl
  | cons b bs ih => rw [fromBytesLe, leValue, ih]

theorem leValue_digits (n : Nat) : leValue (digits n) = n := by
  induction n using Nat.strongRecOn with
  | _ n ih =>
    rw [digits]
    split
    · subst n; rfl
    · rename_i h
      rw [leValue, ih (n / 256) (by omega), UInt8.toNat_ofNat']
      omega

theorem digits_ne_nil {n : Nat} (h : n ≠ 0) : digits n ≠ [] := by
  rw [digits, if_neg h]; simp

/-- The number of digits is exact. -/
theorem digits_length {n : Nat} (h : n ≠ 0) : 256 ^ ((digits n).length - 1) ≤ n := by
  induction n using Nat.strongRecOn with
  | _ n ih =>
    rw [digits, if_neg h, List.length_cons, Nat.add_sub_cancel]
    by_cases h0 : n / 256 = 0
    · rw [h0, digits, if_pos rfl]; simp; omega
    · have h1 := ih (n / 256) (by omega) h0
      have h2 : 0 < (digits (n / 256)).length := List.length_pos_iff.mpr (digits_ne_nil h0)
      obtain ⟨k, hk⟩ : ∃ k, (digits (n / 256)).length = k + 1 := ⟨_, (Nat.succ_pred_eq_of_pos h2).symm⟩
      rw [hk] at h1 ⊢
      rw [Nat.add_sub_cancel] at h1
      rw [Nat.pow_succ]
      omega

theorem leValue_append (as bs : List UInt8) :
    leValue (as ++ bs) = leValue as + 256 ^ as.length * leValue bs := by
  induction as with
  | nil => simp [leValue]
  | cons a as ih =>
    rw [List.cons_append, leValue, leValue, ih, List.length_cons, Nat.pow_succ, Nat.mul_add,
      Nat.mul_comm (256 ^ as.length) 256, Nat.mul_assoc, Nat.add_assoc]

theorem pow_le_of_le {a b : Nat} (h : a ≤ b) : 256 ^ a ≤ 256 ^ b := Nat.pow_le_pow_right (by decide) h

theorem le_of_pow_lt {a b : Nat} (h : 256 ^ (a - 1) < 256 ^ b) : a ≤ b := by
  have := (Nat.pow_lt_pow_iff_right (show 1 < 256 by decide)).mp h
  omega

theorem shortest_digits (n : Nat) : ShortestUnsigned n (digits n) := by
  refine ⟨leValue_digits n, fun bs' h => ?_⟩
  by_cases h0 : n = 0
  · subst h0; rw [digits]; simp
  · have h1 := digits_length h0
    have h2 := leValue_lt bs'
    rw [h] at h2
    exact le_of_pow_lt (Nat.lt_of_le_of_lt h1 h2)

/-! ## Two's complement -/

theorem length_twosComplement (c : Bool) (bs : List UInt8) :
    (twosComplement c bs).length = bs.length := by
  induction bs generalizing c with
  | nil => rfl
  | cons b bs ih =>
    rw [twosComplement]
    split <;> simp [ih]

theorem toNat_not (d : UInt8) : (~~~d).toNat = 255 - d.toNat := by
  have : ∀ v : BitVec 8, (~~~(⟨v⟩ : UInt8)).toNat = 255 - (⟨v⟩ : UInt8).toNat := by decide +kernel
  exact this d.toBitVec

theorem leValue_twosComplement (bs : List UInt8) :
    leValue (twosComplement false bs) + leValue bs + 1 = 256 ^ bs.length ∧
    leValue (twosComplement true bs) + leValue bs
      = if leValue bs = 0 then 0 else 256 ^ bs.length := by
  induction bs with
  | nil => simp [twosComplement, leValue]
  | cons d bs ih =>
    obtain ⟨h1, h2⟩ := ih
    have hd := d.toNat_lt
    have hn := toNat_not d
    have hlt := leValue_lt bs
    rw [List.length_cons, Nat.pow_succ]
    constructor
    · rw [twosComplement, if_neg (by simp), leValue, leValue, hn]
      omega
    · rw [twosComplement, if_pos rfl]
      by_cases h0 : d = 0
      · subst h0
        have e1 : (~~~(0 : UInt8) + 1) = 0 := by decide
        have e2 : (0 : UInt8).toNat = 0 := rfl
        rw [e1, leValue, leValue, e2]
        simp only [beq_self_eq_true]
        split at h2 <;> split <;> omega
      · have hd0 : d.toNat ≠ 0 := fun h => h0 (UInt8.toNat_inj.mp h)
        have e1 : (~~~d + 1).toNat = 256 - d.toNat := by
          rw [UInt8.toNat_add, hn]
          have : (1 : UInt8).toNat = 1 := rfl
          rw [this]
          omega
        have e2 : (~~~d + 1 == 0) = false := by
          rw [beq_eq_false_iff_ne]
          intro h
          have := congrArg UInt8.toNat h
          rw [e1] at this
          simp at this
          omega
        rw [e2, leValue, leValue, e1, if_neg (by omega)]
        omega

/-! ## The top byte -/

theorem leValue_getLast (bs : List UInt8) (b : UInt8) (h : bs.getLast? = some b) :
    ∃ low, low < 256 ^ (bs.length - 1) ∧ leValue bs = low + 256 ^ (bs.length - 1) * b.toNat ∧
      low = leValue bs.dropLast := by
  obtain ⟨ys, hys⟩ := List.getLast?_eq_some_iff.mp h
  subst hys
  refine ⟨leValue ys, ?_, ?_, ?_⟩
  · have := leValue_lt ys
    simpa using this
  · rw [leValue_append]; simp [leValue]
  · simp

theorem pow_len {bs : List UInt8} (h : bs ≠ []) : 256 ^ bs.length = 256 * 256 ^ (bs.length - 1) := by
  have : 0 < bs.length := List.length_pos_iff.mpr h
  obtain ⟨k, hk⟩ : ∃ k, bs.length = k + 1 := ⟨bs.length - 1, by omega⟩
  rw [hk, Nat.pow_succ, Nat.add_sub_cancel, Nat.mul_comm]

/-- The top bit of the last byte decides the sign. -/
theorem top_iff {bs : List UInt8} {b : UInt8} (h : bs.getLast? = some b) :
    0x7f < b ↔ 128 * 256 ^ (bs.length - 1) ≤ leValue bs := by
  obtain ⟨low, h1, h2, -⟩ := leValue_getLast bs b h
  have hb : 0x7f < b ↔ 128 ≤ b.toNat := by
    rw [UInt8.lt_iff_toNat_lt]
    exact Nat.lt_iff_add_one_le
  rw [hb, h2]
  generalize 256 ^ (bs.length - 1) = P at *
  constructor
  · intro hb
    have := Nat.mul_le_mul_left P hb
    omega
  · intro hle
    apply Decidable.byContradiction
    intro hb
    have : b.toNat ≤ 127 := by omega
    have := Nat.mul_le_mul_left P this
    omega

theorem signedValue_eq {bs : List UInt8} (h : bs ≠ []) :
    signedValue bs = if 128 * 256 ^ (bs.length - 1) ≤ leValue bs then
      (leValue bs : Int) - (256 ^ bs.length : Nat) else leValue bs := by
  have := pow_len h
  simp only [signedValue, ne_eq, h, not_false_eq_true, and_true]
  rw [this]
  split <;> split <;> first | rfl | omega

theorem fromSignedBytesLe_eq (bs : List UInt8) : fromSignedBytesLe bs = signedValue bs := by
  cases hl : bs.getLast? with
  | none =>
    have : bs = [] := List.getLast?_eq_none_iff.mp hl
    subst this
    rfl
  | some b =>
    have hne : bs ≠ [] := by rintro rfl; simp at hl
    have hp := pow_len hne
    have htop := top_iff hl
    have hlt := leValue_lt bs
    have h2 := (leValue_twosComplement bs).2
    have hpos : 0 < 256 ^ (bs.length - 1) := Nat.pow_pos (by decide)
    rw [signedValue_eq hne]
    simp only [fromSignedBytesLe, hl, fromBytesLe_eq]
    by_cases hb : 0x7f < b
    · rw [if_pos hb, if_pos (htop.mp hb)]
      have := htop.mp hb
      rw [if_neg (by omega)] at h2
      omega
    · rw [if_neg hb, if_neg (fun h => hb (htop.mpr h))]

/-! ## Shortest signed representation -/

/-- How long a two's-complement representation must at least be. -/
theorem signedValue_bounds (bs : List UInt8) (h : bs ≠ []) :
    -(128 * 256 ^ (bs.length - 1) : Nat) ≤ signedValue bs ∧
      signedValue bs < (128 * 256 ^ (bs.length - 1) : Nat) := by
  have hp := pow_len h
  have hlt := leValue_lt bs
  rw [signedValue_eq h]
  split <;> omega

theorem allZero_iff (bs : List UInt8) : bs.all (· == 0) = true ↔ leValue bs = 0 := by
  induction bs with
  | nil => simp [leValue]
  | cons b bs ih =>
    rw [List.all_cons, Bool.and_eq_true, ih, leValue, beq_iff_eq, ← UInt8.toNat_inj]
    have : (0 : UInt8).toNat = 0 := rfl
    omega

theorem reverse_tail_all (bs : List UInt8) :
    bs.reverse.tail.all (· == 0) = bs.dropLast.all (· == 0) := by
  rw [List.tail_reverse, List.all_reverse]

/-- When a byte is appended. -/
theorem extend_iff {x : Int} {bs : List UInt8} (hne : bs ≠ []) :
    (bs.getLast?.getD 0 > 0x7f ∧
      ¬ (bs.getLast?.getD 0 = 0x80 ∧ bs.reverse.tail.all (· == 0) = true ∧ x < 0)) ↔
    (if x < 0 then 128 * 256 ^ (bs.length - 1) < leValue bs
      else 128 * 256 ^ (bs.length - 1) ≤ leValue bs) := by
  cases hl : bs.getLast? with
  | none => exact absurd (List.getLast?_eq_none_iff.mp hl) hne
  | some b =>
    have htop := top_iff hl
    obtain ⟨low, h1, h2, h3⟩ := leValue_getLast bs b hl
    rw [Option.getD_some, reverse_tail_all, allZero_iff, ← h3]
    have hb80 : b = 0x80 ↔ b.toNat = 128 := by
      rw [← UInt8.toNat_inj]; rfl
    show (0x7f < b ∧ _) ↔ _
    rw [htop, hb80]
    generalize 256 ^ (bs.length - 1) = P at *
    split
    · rename_i hx
      simp only [hx, and_true]
      constructor
      · rintro ⟨ha, hb⟩
        apply Decidable.byContradiction
        intro hc
        have he : leValue bs = 128 * P := by omega
        rw [he] at h2
        have hPpos : 0 < P := by omega
        have hb1 : b.toNat = 128 := by
          have h5 : P * b.toNat ≤ P * 128 := by omega
          have h6 : b.toNat ≤ 128 := Nat.le_of_mul_le_mul_left h5 hPpos
          have h7 : P * 127 < P * b.toNat := by omega
          have h8 : 127 < b.toNat := Nat.lt_of_mul_lt_mul_left h7
          omega
        rw [hb1] at h2
        exact hb ⟨hb1, by omega⟩
      · intro ha
        refine ⟨by omega, ?_⟩
        rintro ⟨hb1, hb2⟩
        rw [hb1, hb2] at h2
        omega
    · rename_i hx
      simp only [hx, and_false, not_false_eq_true, and_true]

theorem toBytesLe_of_ne {n : Nat} (h : n ≠ 0) : toBytesLe n = digits n := by
  rw [toBytesLe, if_neg h]

/-- The magnitude bytes, extended by a zero byte where necessary. -/
theorem magnitude {x : Int} (hx : x ≠ 0) : ∃ bs, bs ≠ [] ∧ leValue bs = x.natAbs ∧
    (if x < 0 then x.natAbs ≤ 128 * 256 ^ (bs.length - 1) else x.natAbs < 128 * 256 ^ (bs.length - 1)) ∧
    (∀ k, (if x < 0 then x.natAbs ≤ 128 * 256 ^ k else x.natAbs < 128 * 256 ^ k) → bs.length ≤ k + 1) ∧
    toSignedBytesLe x = if x < 0 then twosComplement true bs else bs := by
  have hn : x.natAbs ≠ 0 := by omega
  have hd := digits_ne_nil hn
  have hv := leValue_digits x.natAbs
  have hl := digits_length hn
  have hlt := leValue_lt (digits x.natAbs)
  have hp := pow_len hd
  have hpos : 0 < (digits x.natAbs).length := List.length_pos_iff.mpr hd
  have hext := extend_iff (x := x) hd
  rw [hv] at hext hlt
  simp only [toSignedBytesLe, toBytesLe_of_ne hn]
  by_cases he : (digits x.natAbs).getLast?.getD 0 > 0x7f ∧
      ¬ ((digits x.natAbs).getLast?.getD 0 = 0x80 ∧
        (digits x.natAbs).reverse.tail.all (· == 0) = true ∧ x < 0)
  · have hb := hext.mp he
    refine ⟨digits x.natAbs ++ [0], by simp, by rw [leValue_append, hv]; simp [leValue], ?_, ?_, ?_⟩
    · rw [List.length_append, List.length_singleton, Nat.add_sub_cancel]
      split <;> omega
    · intro k hk
      rw [List.length_append, List.length_singleton]
      have : (digits x.natAbs).length - 1 < k := by
        apply Decidable.byContradiction
        intro hc
        have := pow_le_of_le (a := k) (b := (digits x.natAbs).length - 1) (by omega)
        split at hk <;> rename_i h1
        · rw [if_pos h1] at hb; omega
        · rw [if_neg h1] at hb; omega
      omega
    · rw [if_pos he]
  · have hb : ¬ (if x < 0 then 128 * 256 ^ ((digits x.natAbs).length - 1) < x.natAbs
        else 128 * 256 ^ ((digits x.natAbs).length - 1) ≤ x.natAbs) := fun h => he (hext.mpr h)
    refine ⟨digits x.natAbs, hd, hv, ?_, ?_, ?_⟩
    · split <;> rename_i h1
      · rw [if_pos h1] at hb; omega
      · rw [if_neg h1] at hb; omega
    · intro k hk
      have h3 : 256 ^ ((digits x.natAbs).length - 1) < 256 ^ (k + 1) := by
        rw [Nat.pow_succ]
        have : 0 < 256 ^ k := Nat.pow_pos (by decide)
        split at hk <;> omega
      exact le_of_pow_lt h3
    · rw [if_neg he]

theorem shortest_signed {x : Int} (hx : x ≠ 0) : ShortestSigned x (toSignedBytesLe x) := by
  obtain ⟨bs, hne, hv, hfit, hmin, heq⟩ := magnitude hx
  have hlen : (toSignedBytesLe x).length = bs.length := by
    rw [heq]; split
    · exact length_twosComplement _ _
    · rfl
  have hne' : toSignedBytesLe x ≠ [] := fun h => by
    rw [h] at hlen; exact hne (List.length_eq_zero_iff.mp hlen.symm)
  have hp := pow_len hne
  refine ⟨?_, fun bs' h => ?_⟩
  · rw [signedValue_eq hne', hlen]
    by_cases hneg : x < 0
    · rw [if_pos hneg] at hfit heq
      have h2 := (leValue_twosComplement bs).2
      rw [hv, if_neg (by omega), ← heq] at h2
      rw [if_pos (by omega)]
      omega
    · rw [if_neg hneg] at hfit heq
      rw [heq, if_neg (by omega)]
      omega
  · have hne2 : bs' ≠ [] := by
      rintro rfl
      simp [signedValue, leValue] at h
      exact hx h.symm
    have hpos : 0 < bs'.length := List.length_pos_iff.mpr hne2
    have hb := signedValue_bounds bs' hne2
    rw [h] at hb
    have := hmin (bs'.length - 1) (by split <;> omega)
    omega

/-! ## Decimals -/

theorem stripZeros_spec {n : Nat} (h : n ≠ 0) :
    (stripZeros n).1 * 10 ^ (stripZeros n).2 = n ∧ (stripZeros n).1 % 10 ≠ 0 := by
  induction n using Nat.strongRecOn with
  | _ n ih =>
    rw [stripZeros]
    split
    · rename_i hc
      obtain ⟨h1, h2⟩ := ih (n / 10) (by omega) (by omega)
      refine ⟨?_, h2⟩
      show (stripZeros (n / 10)).1 * 10 ^ ((stripZeros (n / 10)).2 + 1) = n
      rw [Nat.pow_succ, ← Nat.mul_assoc, h1]
      omega
    · rename_i hc
      refine ⟨by simp, ?_⟩
      show n % 10 ≠ 0
      omega

theorem sign_mul_natAbs (x : Int) : x.sign * x.natAbs = x := Int.sign_mul_natAbs x

theorem dvd_of_strip {x : Int} (hx : x ≠ 0) :
    (10 ^ (stripZeros x.natAbs).2 : Int) ∣ x := by
  have h := (stripZeros_spec (n := x.natAbs) (by omega)).1
  refine Int.natAbs_dvd_natAbs.mp ?_
  rw [Int.natAbs_pow]
  exact ⟨(stripZeros x.natAbs).1, by rw [Nat.mul_comm]; exact h.symm⟩

theorem mul_pow_inj {u v p q : Nat} (hu : u % 10 ≠ 0) (hv : v % 10 ≠ 0)
    (h : u * 10 ^ p = v * 10 ^ q) : u = v ∧ p = q := by
  induction p generalizing q with
  | zero =>
    cases q with
    | zero => simpa using h
    | succ q =>
      rw [Nat.pow_zero, Nat.mul_one, Nat.pow_succ, ← Nat.mul_assoc] at h
      omega
  | succ p ih =>
    cases q with
    | zero =>
      rw [Nat.pow_zero, Nat.mul_one, Nat.pow_succ, ← Nat.mul_assoc] at h
      omega
    | succ q =>
      rw [Nat.pow_succ, Nat.pow_succ, ← Nat.mul_assoc, ← Nat.mul_assoc] at h
      have := ih (q := q) (by omega)
      omega

theorem toInt_ofNat {k : Nat} (h : k < 2 ^ 63) : (Int64.ofNat k).toInt = k := by
  rw [Int64.toInt_ofNat_of_lt h]

theorem toInt_scale {s : Int64} {k : Nat} (h : k < 2 ^ 63) (h2 : -2 ^ 63 ≤ s.toInt - k) :
    (s - Int64.ofNat k).toInt = s.toInt - k := by
  have h1 := Int64.toInt_lt s
  rw [Int64.toInt_sub, toInt_ofNat h]
  exact Int.bmod_eq_of_le (by omega) (by omega)

theorem subI64_fits (mode : BuildMode) {s : Int64} {k : Nat} (h : k < 2 ^ 63)
    (h2 : -2 ^ 63 ≤ s.toInt - k) : subI64 mode s (Int64.ofNat k) = some (s - Int64.ofNat k) := by
  cases mode with
  | release => rfl
  | debug =>
    have h1 := Int64.toInt_lt s
    simp only [subI64, toInt_ofNat h]
    rw [if_pos]
    rw [Int64.toInt_ofInt]
    have hsz : (Int64.size : Int) = 2 ^ 64 := rfl
    exact Int.bmod_eq_of_le (by omega) (by omega)

theorem subI64_overflow {s : Int64} {k : Nat} (h : k < 2 ^ 63)
    (h2 : s.toInt - k < -2 ^ 63) : subI64 .debug s (Int64.ofNat k) = none := by
  simp only [subI64, toInt_ofNat h]
  rw [if_neg]
  intro he
  have := Int64.le_toInt (Int64.ofInt (s.toInt - k))
  omega

/-- The normal form exists, denotes the same number and has no trailing zero. -/
theorem normalized_spec (mode : BuildMode) (v : Decimal) (hz : v.intVal ≠ 0) (hf : ScaleFits v) :
    ∃ (n : Decimal) (k : Nat), v.normalized mode = some n ∧ n.intVal * 10 ^ k = v.intVal ∧
      n.scale.toInt = v.scale.toInt - k ∧ n.intVal.natAbs % 10 ≠ 0 := by
  have hk := hf hz _ (dvd_of_strip hz)
  have hs := stripZeros_spec (n := v.intVal.natAbs) (by omega)
  refine ⟨⟨v.intVal.sign * (stripZeros v.intVal.natAbs).1,
    v.scale - Int64.ofNat (stripZeros v.intVal.natAbs).2⟩, (stripZeros v.intVal.natAbs).2,
    ?_, ?_, ?_, ?_⟩
  · simp only [Decimal.normalized]
    rw [if_neg hz, subI64_fits mode hk.1 hk.2]
  · show v.intVal.sign * _ * _ = _
    rw [Int.mul_assoc]
    have : ((stripZeros v.intVal.natAbs).1 : Int) * 10 ^ (stripZeros v.intVal.natAbs).2
        = v.intVal.natAbs := by exact_mod_cast hs.1
    rw [this]
    exact sign_mul_natAbs _
  · exact toInt_scale hk.1 hk.2
  · show (v.intVal.sign * _).natAbs % 10 ≠ 0
    rw [Int.natAbs_mul, Int.natAbs_sign_of_ne_zero hz]
    simpa using hs.2

theorem pow10_ne (k : Nat) : (10 ^ k : Int) ≠ 0 := Int.pow_ne_zero (by decide)

/-- Numbers without trailing zeros are equal when they denote the same number. -/
theorem same_unique {v w : Decimal} (hv : v.intVal.natAbs % 10 ≠ 0) (hw : w.intVal.natAbs % 10 ≠ 0)
    (h : SameNumber v w) : v = w := by
  obtain ⟨a, b, hs, hi⟩ := h
  have hn := congrArg Int.natAbs hi
  rw [Int.natAbs_mul, Int.natAbs_mul, Int.natAbs_pow, Int.natAbs_pow] at hn
  obtain ⟨hu, hab⟩ := mul_pow_inj hv hw hn
  subst hab
  have h1 : v.intVal = w.intVal := Int.eq_of_mul_eq_mul_right (pow10_ne a) hi
  have h2 : v.scale = w.scale := Int64.toInt_inj.mp (by omega)
  cases v; cases w; simp_all

theorem same_refl (v : Decimal) : SameNumber v v := ⟨0, 0, rfl, rfl⟩
theorem same_symm {v w : Decimal} (h : SameNumber v w) : SameNumber w v := by
  obtain ⟨a, b, h1, h2⟩ := h
  exact ⟨b, a, h1.symm, h2.symm⟩
theorem same_trans {u v w : Decimal} (h : SameNumber u v) (h' : SameNumber v w) :
    SameNumber u w := by
  obtain ⟨a, b, h1, h2⟩ := h
  obtain ⟨c, d, h3, h4⟩ := h'
  refine ⟨a + c, d + b, by omega, ?_⟩
  rw [Int.pow_add, Int.pow_add, ← Int.mul_assoc, ← Int.mul_assoc, h2, ← h4]
  rw [Int.mul_assoc, Int.mul_comm (10 ^ b), ← Int.mul_assoc]

theorem same_zero {v w : Decimal} (h : SameNumber v w) : v.intVal = 0 ↔ w.intVal = 0 := by
  obtain ⟨a, b, -, hi⟩ := h
  constructor
  · intro hz
    rw [hz, Int.zero_mul] at hi
    exact (Int.mul_eq_zero.mp hi.symm).resolve_right (pow10_ne b)
  · intro hz
    rw [hz, Int.zero_mul] at hi
    exact (Int.mul_eq_zero.mp hi).resolve_right (pow10_ne a)

theorem same_of_zero {v w : Decimal} (hv : v.intVal = 0) (hw : w.intVal = 0) : SameNumber v w := by
  refine ⟨(w.scale.toInt - v.scale.toInt).toNat, (v.scale.toInt - w.scale.toInt).toNat, ?_, ?_⟩
  · omega
  · rw [hv, hw]; simp

theorem ne_zero_of_mod {x : Int} (h : x.natAbs % 10 ≠ 0) : x ≠ 0 := by
  rintro rfl
  simp at h

end Dlhn.Num

namespace Dlhn

open Spec Num

theorem BigUint.ofNum_eq (n : Nat) : BigUint.ofNum n = ⟨digits n⟩ := by
  rw [ofNum]
  split
  · subst n; rw [digits]; rfl
  · rw [toBytesLe_of_ne ‹_›]

/-- What the conversion stores. -/
theorem BigDecimal.ofNum_spec (mode : BuildMode) (v : Num.Decimal) (hf : ScaleFits v) :
    (v.intVal = 0 ∧ BigDecimal.ofNum mode v = .ok ⟨[], 0⟩) ∨
    (v.intVal ≠ 0 ∧ ∃ n, v.normalized mode = some n ∧ n.intVal.natAbs % 10 ≠ 0 ∧ SameNumber n v ∧
      n.scale.toInt ≤ v.scale.toInt ∧
      BigDecimal.ofNum mode v = .ok ⟨toSignedBytesLe n.intVal, n.scale⟩ ∧
      (⟨toSignedBytesLe n.intVal, n.scale⟩ : BigDecimal).toNum = n) := by
  by_cases hz : v.intVal = 0
  · exact Or.inl ⟨hz, by rw [ofNum, if_pos hz]⟩
  · right
    obtain ⟨n, k, h1, h2, h3, h4⟩ := normalized_spec mode v hz hf
    refine ⟨hz, n, h1, h4, ⟨k, 0, by omega, by simpa using h2⟩, by omega, ?_, ?_⟩
    · rw [ofNum, if_neg hz, h1]
    · rw [toNum, fromSignedBytesLe_eq, (shortest_signed (ne_zero_of_mod h4)).1]

/-- Writing zero as the byte 0 or as an empty vector is the same program. -/
theorem Ser.serVecU8_nil : Ser.serVecU8 [] = Ser.serU8 0 := by
  have : PrefixVarint.slice (PrefixVarint.encodeU64 (UInt64.ofNat 0) (Vector.replicate 9 0)) = [0] := by
    decide +kernel
  show Ser.emit _ = Ser.emit [0]
  exact congrArg _ this

end Dlhn
