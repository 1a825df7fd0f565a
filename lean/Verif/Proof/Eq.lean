import Verif.Model.Eq
import Verif.Proof.Body
import Verif.Spec.Eq
/-!
# Lemmas about equality
-/
namespace Dlhn
open Spec

theorem magnitude_lt {m e₁ f₁ e₂ f₂ : Nat} (h1 : f₁ < 2 ^ m) (he : e₁ < e₂) :
    (if e₁ = 0 then f₁ else (2 ^ m + f₁) * 2 ^ (e₁ - 1)) <
      (if e₂ = 0 then f₂ else (2 ^ m + f₂) * 2 ^ (e₂ - 1)) := by
  have a : (if e₁ = 0 then f₁ else (2 ^ m + f₁) * 2 ^ (e₁ - 1)) < 2 ^ m * 2 ^ e₁ := by
    split
    · subst e₁; simpa using h1
    · obtain ⟨k, rfl⟩ : ∃ k, e₁ = k + 1 := ⟨e₁ - 1, by omega⟩
      rw [Nat.add_sub_cancel, Nat.pow_succ, ← Nat.mul_assoc, Nat.mul_right_comm]
      exact Nat.mul_lt_mul_of_pos_right (by omega) (Nat.two_pow_pos k)
  have b : 2 ^ m * 2 ^ e₁ ≤ (if e₂ = 0 then f₂ else (2 ^ m + f₂) * 2 ^ (e₂ - 1)) := by
    rw [if_neg (by omega)]
    exact Nat.mul_le_mul (by omega) (Nat.pow_le_pow_right (by decide) (by omega))
  omega

theorem magnitude_inj {m e₁ f₁ e₂ f₂ : Nat} (h1 : f₁ < 2 ^ m) (h2 : f₂ < 2 ^ m)
    (h : (if e₁ = 0 then f₁ else (2 ^ m + f₁) * 2 ^ (e₁ - 1)) =
      (if e₂ = 0 then f₂ else (2 ^ m + f₂) * 2 ^ (e₂ - 1))) : e₁ = e₂ ∧ f₁ = f₂ := by
  rcases Nat.lt_trichotomy e₁ e₂ with hl | rfl | hl
  · have := magnitude_lt (f₂ := f₂) h1 hl; omega
  · refine ⟨rfl, ?_⟩
    by_cases h0 : e₁ = 0
    · simpa only [if_pos h0] using h
    · simp only [if_neg h0] at h
      have := Nat.eq_of_mul_eq_mul_right (Nat.two_pow_pos _) h
      omega
  · have := magnitude_lt (f₂ := f₁) h2 hl; omega

theorem magnitude_zero {m e f : Nat} :
    (if e = 0 then f else (2 ^ m + f) * 2 ^ (e - 1)) = 0 ↔ e = 0 ∧ f = 0 := by
  split
  · simp [*]
  · have := Nat.two_pow_pos m
    have := Nat.two_pow_pos (e - 1)
    simp only [Nat.mul_eq_zero]
    omega

/-- Sign, exponent and fraction make the bits. -/
theorem bits_split (e m n : Nat) :
    n = (n / 2 ^ (e + m)) * 2 ^ (e + m) + (n / 2 ^ m % 2 ^ e) * 2 ^ m + n % 2 ^ m := by
  have h1 := Nat.div_add_mod n (2 ^ m)
  have h2 := Nat.div_add_mod (n / 2 ^ m) (2 ^ e)
  have h3 : n / 2 ^ m / 2 ^ e = n / 2 ^ (e + m) := by
    rw [Nat.div_div_eq_div_mul, ← Nat.pow_add, Nat.add_comm]
  rw [h3] at h2
  rw [Nat.pow_add 2 e m, ← Nat.mul_assoc, ← Nat.add_mul, ← Nat.pow_add]
  rw [Nat.mul_comm (n / 2 ^ (e + m)), h2, Nat.mul_comm, h1]

theorem floatValue_eq {e m a b : Nat} (he : 0 < e) (ha : a < 2 ^ (e + m + 1))
    (hb : b < 2 ^ (e + m + 1)) :
    (floatValue e m a).Equal (floatValue e m b) ↔
      floatValue e m a ≠ .nan ∧ floatValue e m b ≠ .nan ∧
        (a = b ∨ (a % 2 ^ (e + m) = 0 ∧ b % 2 ^ (e + m) = 0)) := by
  have sa := bits_split e m a
  have sb := bits_split e m b
  have ta : a / 2 ^ (e + m) < 2 := by
    rw [Nat.div_lt_iff_lt_mul (Nat.two_pow_pos _)]; rw [Nat.pow_succ] at ha; omega
  have tb : b / 2 ^ (e + m) < 2 := by
    rw [Nat.div_lt_iff_lt_mul (Nat.two_pow_pos _)]; rw [Nat.pow_succ] at hb; omega
  have fa := Nat.mod_lt a (Nat.two_pow_pos m)
  have fb := Nat.mod_lt b (Nat.two_pow_pos m)
  have ma : a % 2 ^ (e + m) = (a / 2 ^ m % 2 ^ e) * 2 ^ m + a % 2 ^ m := by
    have := Nat.div_add_mod a (2 ^ (e + m))
    rw [Nat.mul_comm] at this
    omega
  have mb : b % 2 ^ (e + m) = (b / 2 ^ m % 2 ^ e) * 2 ^ m + b % 2 ^ m := by
    have := Nat.div_add_mod b (2 ^ (e + m))
    rw [Nat.mul_comm] at this
    omega
  rw [ma, mb]
  have hz : 2 ≤ 2 ^ e := by
    have := Nat.pow_le_pow_right (n := 2) (by decide) he
    simpa using this
  generalize h1 : a / 2 ^ (e + m) = s at *
  generalize h2 : a / 2 ^ m % 2 ^ e = x at *
  generalize h3 : a % 2 ^ m = f at *
  generalize h4 : b / 2 ^ (e + m) = s' at *
  generalize h5 : b / 2 ^ m % 2 ^ e = x' at *
  generalize h6 : b % 2 ^ m = f' at *
  have zero : ∀ {x f : Nat}, x * 2 ^ m + f = 0 ↔ x = 0 ∧ f = 0 := by
    intro x f
    have := Nat.two_pow_pos m
    rw [Nat.add_eq_zero_iff, Nat.mul_eq_zero]
    omega
  have key : a = b ↔ s = s' ∧ x = x' ∧ f = f' := by
    constructor
    · intro h
      subst h
      exact ⟨by omega, by omega, by omega⟩
    · rintro ⟨rfl, rfl, rfl⟩
      omega
  rw [zero, zero, key]
  simp only [floatValue, FloatValue.Equal, h1, h2, h3, h4, h5, h6]
  have hs : s % 2 = s := Nat.mod_eq_of_lt ta
  have hs' : s' % 2 = s' := Nat.mod_eq_of_lt tb
  rw [hs, hs']
  by_cases hx : x = 2 ^ e - 1
  · rw [if_pos hx]
    by_cases hf : f = 0
    · rw [if_pos hf]
      by_cases hx' : x' = 2 ^ e - 1
      · rw [if_pos hx']
        by_cases hf' : f' = 0
        · rw [if_pos hf']
          simp only [ne_eq, reduceCtorEq, not_false_eq_true, FloatValue.infinite.injEq, true_and,
            decide_eq_decide]
          constructor
          · intro h; left; omega
          · intro h; omega
        · rw [if_neg hf']; simp
      · rw [if_neg hx']
        simp only [ne_eq, reduceCtorEq, not_false_eq_true, and_false, true_and, false_iff]
        omega
    · rw [if_neg hf]; simp
  · rw [if_neg hx]
    by_cases hx' : x' = 2 ^ e - 1
    · rw [if_pos hx']
      by_cases hf' : f' = 0
      · rw [if_pos hf']
        simp only [ne_eq, reduceCtorEq, not_false_eq_true, and_false, true_and, false_iff]
        omega
      · rw [if_neg hf']; simp
    · rw [if_neg hx']
      simp only [ne_eq, reduceCtorEq, not_false_eq_true, FloatValue.finite.injEq, true_and]
      have hi := @magnitude_inj m x f x' f' fa fb
      have z1 := @magnitude_zero m x f
      have z2 := @magnitude_zero m x' f'
      generalize hA : (if x = 0 then f else (2 ^ m + f) * 2 ^ (x - 1)) = A at *
      generalize hB : (if x' = 0 then f' else (2 ^ m + f') * 2 ^ (x' - 1)) = B at *
      constructor
      · intro h
        by_cases hAB : A = B
        · have := hi hAB
          by_cases hA0 : A = 0
          · right; exact ⟨z1.mp hA0, z2.mp (by omega)⟩
          · left
            refine ⟨?_, this⟩
            subst hAB
            split at h <;> split at h <;> omega
        · have : A = 0 ∧ B = 0 := by split at h <;> split at h <;> omega
          exact absurd (by omega) hAB
      · rintro (⟨rfl, rfl, rfl⟩ | ⟨h1, h2⟩)
        · have : A = B := by rw [← hA, ← hB]
          rw [this]
        · rw [z1.mpr h1, z2.mpr h2]; simp

theorem floatValue_nan {e m a : Nat} :
    floatValue e m a = .nan ↔ a / 2 ^ m % 2 ^ e = 2 ^ e - 1 ∧ a % 2 ^ m ≠ 0 := by
  rw [floatValue]
  dsimp only
  split
  · split <;> simp [*]
  · simp [*]

theorem floatValue_zero {e m a : Nat} (he : 0 < e) :
    floatValue e m a = .finite 0 ↔ a % 2 ^ (e + m) = 0 := by
  have ma : a % 2 ^ (e + m) = (a / 2 ^ m % 2 ^ e) * 2 ^ m + a % 2 ^ m := by
    have := Nat.div_add_mod a (2 ^ (e + m))
    have sa := bits_split e m a
    rw [Nat.mul_comm] at this
    omega
  have hz : 2 ≤ 2 ^ e := by
    have := Nat.pow_le_pow_right (n := 2) (by decide) he
    simpa using this
  have := Nat.two_pow_pos m
  rw [ma, floatValue, Nat.add_eq_zero_iff, Nat.mul_eq_zero]
  dsimp only
  have z := @magnitude_zero m (a / 2 ^ m % 2 ^ e) (a % 2 ^ m)
  generalize (if a / 2 ^ m % 2 ^ e = 0 then a % 2 ^ m
    else (2 ^ m + a % 2 ^ m) * 2 ^ (a / 2 ^ m % 2 ^ e - 1)) = A at *
  split
  · split <;> simp only [reduceCtorEq, false_iff] <;> omega
  · simp only [FloatValue.finite.injEq]
    constructor
    · intro h
      have : A = 0 := by split at h <;> omega
      have := z.mp this
      omega
    · intro h
      rw [z.mpr (by omega)]; simp

theorem single_nan (a : UInt32) : single a = .nan ↔ 0x7f800000 < a.toNat % 2 ^ 31 := by
  rw [single, floatValue_nan]
  omega

theorem double_nan (a : UInt64) : double a = .nan ↔ 0x7ff0000000000000 < a.toNat % 2 ^ 63 := by
  rw [double, floatValue_nan]
  omega

theorem f32_mask (a : UInt32) : (a &&& 0x7fffffff).toNat = a.toNat % 2 ^ 31 := by
  rw [UInt32.toNat_and]
  exact Nat.and_two_pow_sub_one_eq_mod _ 31

theorem f64_mask (a : UInt64) : (a &&& 0x7fffffffffffffff).toNat = a.toNat % 2 ^ 63 := by
  rw [UInt64.toNat_and]
  exact Nat.and_two_pow_sub_one_eq_mod _ 63

theorem f32Eq_iff (a b : UInt32) : f32Eq a b = true ↔ (single a).Equal (single b) := by
  have ha := a.toNat_lt
  have hb := b.toNat_lt
  rw [single, single, floatValue_eq (by decide) (by simpa using ha) (by simpa using hb)]
  have na := single_nan a
  have nb := single_nan b
  rw [single] at na nb
  rw [Ne, Ne, na, nb, f32Eq]
  simp only [Bool.and_eq_true, Bool.or_eq_true, Bool.not_eq_true', decide_eq_false_iff_not,
    beq_iff_eq, UInt32.lt_iff_toNat_lt, ← UInt32.toNat_inj, f32_mask, and_assoc]
  exact Iff.rfl

theorem f64Eq_iff (a b : UInt64) : f64Eq a b = true ↔ (double a).Equal (double b) := by
  have ha := a.toNat_lt
  have hb := b.toNat_lt
  rw [double, double, floatValue_eq (by decide) (by simpa using ha) (by simpa using hb)]
  have na := double_nan a
  have nb := double_nan b
  rw [double] at na nb
  rw [Ne, Ne, na, nb, f64Eq]
  simp only [Bool.and_eq_true, Bool.or_eq_true, Bool.not_eq_true', decide_eq_false_iff_not,
    beq_iff_eq, UInt64.lt_iff_toNat_lt, ← UInt64.toNat_inj, f64_mask, and_assoc]
  exact Iff.rfl

theorem single_inj {a b : UInt32} (h : (single a).Equal (single b)) (hz : single a ≠ .finite 0) :
    a = b := by
  have ha := a.toNat_lt
  have hb := b.toNat_lt
  have h1 := ((floatValue_eq (e := 8) (m := 23) (by decide) (by simpa using ha)
    (by simpa using hb)).mp h).2.2
  rw [single, Ne, floatValue_zero (by decide)] at hz
  exact UInt32.toNat_inj.mp (by omega)

theorem double_inj {a b : UInt64} (h : (double a).Equal (double b)) (hz : double a ≠ .finite 0) :
    a = b := by
  have ha := a.toNat_lt
  have hb := b.toNat_lt
  have h1 := ((floatValue_eq (e := 11) (m := 52) (by decide) (by simpa using ha)
    (by simpa using hb)).mp h).2.2
  rw [double, Ne, floatValue_zero (by decide)] at hz
  exact UInt64.toNat_inj.mp (by omega)

/-! ## The small types -/

theorem BigUint.eq_iff (a b : BigUint) : a.eq b = true ↔ a = b := by
  cases a; cases b; simp [BigUint.eq]
theorem BigInt.eq_iff (a b : BigInt) : a.eq b = true ↔ a = b := by
  cases a; cases b; simp [BigInt.eq]
theorem BigDecimal.eq_iff (a b : BigDecimal) : a.eq b = true ↔ a = b := by
  cases a; cases b; simp [BigDecimal.eq]
theorem Date.eq_iff (a b : Date) : a.eq b = true ↔ a = b := by
  cases a; cases b; simp [Date.eq]
theorem DateTime.eq_iff (a b : DateTime) : a.eq b = true ↔ a = b := by
  cases a; cases b; simp [DateTime.eq]

/-! ## Bodies -/

namespace Body

/-- Equality read off the positions of lists and entries. -/
inductive Alike : Body → Body → Prop where
  | unit : Alike .unit .unit
  | none : Alike .none .none
  | some {a b : Body} : Alike a b → Alike (.some a) (.some b)
  | boolean (v : Bool) : Alike (.boolean v) (.boolean v)
  | uint8 (v : UInt8) : Alike (.uint8 v) (.uint8 v)
  | uint16 (v : UInt16) : Alike (.uint16 v) (.uint16 v)
  | uint32 (v : UInt32) : Alike (.uint32 v) (.uint32 v)
  | uint64 (v : UInt64) : Alike (.uint64 v) (.uint64 v)
  | int8 (v : Int8) : Alike (.int8 v) (.int8 v)
  | int16 (v : Int16) : Alike (.int16 v) (.int16 v)
  | int32 (v : Int32) : Alike (.int32 v) (.int32 v)
  | int64 (v : Int64) : Alike (.int64 v) (.int64 v)
  | float32 {v w : UInt32} : (single v).Equal (single w) → Alike (.float32 v) (.float32 w)
  | float64 {v w : UInt64} : (double v).Equal (double w) → Alike (.float64 v) (.float64 w)
  | bigUInt (v : BigUint) : Alike (.bigUInt v) (.bigUInt v)
  | bigInt (v : BigInt) : Alike (.bigInt v) (.bigInt v)
  | bigDecimal (v : BigDecimal) : Alike (.bigDecimal v) (.bigDecimal v)
  | string (v : String) : Alike (.string v) (.string v)
  | binary (v : List UInt8) : Alike (.binary v) (.binary v)
  | arrayNil : Alike (.array []) (.array [])
  | arrayCons {a b : Body} {as bs : List Body} : Alike a b → Alike (.array as) (.array bs) →
      Alike (.array (a :: as)) (.array (b :: bs))
  | tupleNil : Alike (.tuple []) (.tuple [])
  | tupleCons {a b : Body} {as bs : List Body} : Alike a b → Alike (.tuple as) (.tuple bs) →
      Alike (.tuple (a :: as)) (.tuple (b :: bs))
  | mapNil : Alike (.map []) (.map [])
  | mapCons (k : String) {a b : Body} {es fs : List (String × Body)} : Alike a b →
      Alike (.map es) (.map fs) → Alike (.map ((k, a) :: es)) (.map ((k, b) :: fs))
  | enum (i : UInt32) {a b : Body} : Alike a b → Alike (.enum i a) (.enum i b)
  | date (v : Date) : Alike (.date v) (.date v)
  | dateTime (v : DateTime) : Alike (.dateTime v) (.dateTime v)

mutual
theorem alike_of_eq : (a b : Body) → eq a b = true → Alike a b
  | .some a, x => by
    intro h
    cases x <;> simp only [eq, Bool.false_eq_true] at h
    exact .some (alike_of_eq a _ h)
  | .enum i a, x => by
    intro h
    cases x <;> simp only [eq, Bool.false_eq_true, Bool.and_eq_true, beq_iff_eq] at h
    obtain ⟨rfl, h⟩ := h
    exact .enum _ (alike_of_eq a _ h)
  | .array as, x => by
    intro h
    cases x <;> simp only [eq, Bool.false_eq_true] at h
    exact (alike_of_eqAll as _ h).1
  | .tuple as, x => by
    intro h
    cases x <;> simp only [eq, Bool.false_eq_true] at h
    exact (alike_of_eqAll as _ h).2
  | .map es, x => by
    intro h
    cases x <;> simp only [eq, Bool.false_eq_true] at h
    exact alike_of_eqEntries es _ h
  | .unit, x => by
    intro h; cases x <;> simp only [eq, Bool.false_eq_true] at h; constructor
  | .none, x => by
    intro h; cases x <;> simp only [eq, Bool.false_eq_true] at h; constructor
  | .boolean _, x => by
    intro h; cases x <;> simp only [eq, Bool.false_eq_true, beq_iff_eq] at h
    subst h; constructor
  | .uint8 _, x => by
    intro h; cases x <;> simp only [eq, Bool.false_eq_true, beq_iff_eq] at h
    subst h; constructor
  | .uint16 _, x => by
    intro h; cases x <;> simp only [eq, Bool.false_eq_true, beq_iff_eq] at h
    subst h; constructor
  | .uint32 _, x => by
    intro h; cases x <;> simp only [eq, Bool.false_eq_true, beq_iff_eq] at h
    subst h; constructor
  | .uint64 _, x => by
    intro h; cases x <;> simp only [eq, Bool.false_eq_true, beq_iff_eq] at h
    subst h; constructor
  | .int8 _, x => by
    intro h; cases x <;> simp only [eq, Bool.false_eq_true, beq_iff_eq] at h
    subst h; constructor
  | .int16 _, x => by
    intro h; cases x <;> simp only [eq, Bool.false_eq_true, beq_iff_eq] at h
    subst h; constructor
  | .int32 _, x => by
    intro h; cases x <;> simp only [eq, Bool.false_eq_true, beq_iff_eq] at h
    subst h; constructor
  | .int64 _, x => by
    intro h; cases x <;> simp only [eq, Bool.false_eq_true, beq_iff_eq] at h
    subst h; constructor
  | .float32 _, x => by
    intro h; cases x <;> simp only [eq, Bool.false_eq_true, f32Eq_iff] at h
    exact .float32 h
  | .float64 _, x => by
    intro h; cases x <;> simp only [eq, Bool.false_eq_true, f64Eq_iff] at h
    exact .float64 h
  | .bigUInt _, x => by
    intro h; cases x <;> simp only [eq, Bool.false_eq_true, BigUint.eq_iff] at h
    subst h; constructor
  | .bigInt _, x => by
    intro h; cases x <;> simp only [eq, Bool.false_eq_true, BigInt.eq_iff] at h
    subst h; constructor
  | .bigDecimal _, x => by
    intro h; cases x <;> simp only [eq, Bool.false_eq_true, BigDecimal.eq_iff] at h
    subst h; constructor
  | .string _, x => by
    intro h; cases x <;> simp only [eq, Bool.false_eq_true, beq_iff_eq] at h
    subst h; constructor
  | .binary _, x => by
    intro h; cases x <;> simp only [eq, Bool.false_eq_true, beq_iff_eq] at h
    subst h; constructor
  | .date _, x => by
    intro h; cases x <;> simp only [eq, Bool.false_eq_true, Date.eq_iff] at h
    subst h; constructor
  | .dateTime _, x => by
    intro h; cases x <;> simp only [eq, Bool.false_eq_true, DateTime.eq_iff] at h
    subst h; constructor
theorem alike_of_eqAll : (as bs : List Body) → eqAll as bs = true →
    Alike (.array as) (.array bs) ∧ Alike (.tuple as) (.tuple bs)
  | [], x => by
    intro h
    cases x <;> simp only [eqAll, Bool.false_eq_true] at h
    exact ⟨.arrayNil, .tupleNil⟩
  | a :: as, x => by
    intro h
    cases x <;> simp only [eqAll, Bool.false_eq_true, Bool.and_eq_true] at h
    obtain ⟨h1, h2⟩ := alike_of_eqAll as _ h.2
    exact ⟨.arrayCons (alike_of_eq a _ h.1) h1, .tupleCons (alike_of_eq a _ h.1) h2⟩
theorem alike_of_eqEntries : (es fs : List (String × Body)) → eqEntries es fs = true →
    Alike (.map es) (.map fs)
  | [], x => by
    intro h
    cases x <;> simp only [eqEntries, Bool.false_eq_true] at h
    exact .mapNil
  | (k, a) :: es, x => by
    intro h
    match x with
    | [] => simp only [eqEntries, Bool.false_eq_true] at h
    | (l, b) :: fs =>
      simp only [eqEntries, Bool.and_eq_true, beq_iff_eq] at h
      obtain ⟨⟨rfl, h1⟩, h2⟩ := h
      exact .mapCons _ (alike_of_eq a _ h1) (alike_of_eqEntries es _ h2)
end

theorem eq_of_alike {a b : Body} (h : Alike a b) : eq a b = true := by
  induction h with
  | unit | none | arrayNil | tupleNil | mapNil => simp [eq, eqAll, eqEntries]
  | some _ ih => simpa [eq] using ih
  | enum _ _ ih => simpa [eq] using ih
  | arrayCons _ _ i1 i2 => rw [eq] at i2 ⊢; simpa [eqAll, i1] using i2
  | tupleCons _ _ i1 i2 => rw [eq] at i2 ⊢; simpa [eqAll, i1] using i2
  | mapCons _ _ _ i1 i2 => rw [eq] at i2 ⊢; simpa [eqEntries, i1] using i2
  | float32 h => rw [eq]; exact (f32Eq_iff _ _).mpr h
  | float64 h => rw [eq]; exact (f64Eq_iff _ _).mpr h
  | bigUInt v => rw [eq]; exact (BigUint.eq_iff _ _).mpr rfl
  | bigInt v => rw [eq]; exact (BigInt.eq_iff _ _).mpr rfl
  | bigDecimal v => rw [eq]; exact (BigDecimal.eq_iff _ _).mpr rfl
  | date v => rw [eq]; exact (Date.eq_iff _ _).mpr rfl
  | dateTime v => rw [eq]; exact (DateTime.eq_iff _ _).mpr rfl
  | _ => simp [eq]

theorem eq_iff_alike (a b : Body) : eq a b = true ↔ Alike a b := ⟨alike_of_eq a b, eq_of_alike⟩

theorem Alike.symm {a b : Body} (h : Alike a b) : Alike b a := by
  induction h with
  | float32 h => exact .float32 ⟨h.2 ▸ h.1, h.2.symm⟩
  | float64 h => exact .float64 ⟨h.2 ▸ h.1, h.2.symm⟩
  | some _ ih => exact .some ih
  | enum _ _ ih => exact .enum _ ih
  | arrayCons _ _ i1 i2 => exact .arrayCons i1 i2
  | tupleCons _ _ i1 i2 => exact .tupleCons i1 i2
  | mapCons _ _ _ i1 i2 => exact .mapCons _ i1 i2
  | _ => constructor

theorem Alike.trans {a b : Body} (h : Alike a b) : ∀ {c : Body}, Alike b c → Alike a c := by
  induction h with
  | float32 h =>
    intro c h'
    cases h' with
    | float32 h' => exact .float32 ⟨h.1, h.2.trans h'.2⟩
  | float64 h =>
    intro c h'
    cases h' with
    | float64 h' => exact .float64 ⟨h.1, h.2.trans h'.2⟩
  | some _ ih => intro c h'; cases h' with | some h' => exact .some (ih h')
  | enum _ _ ih => intro c h'; cases h' with | enum _ h' => exact .enum _ (ih h')
  | arrayCons _ _ i1 i2 =>
    intro c h'; cases h' with | arrayCons h1 h2 => exact .arrayCons (i1 h1) (i2 h2)
  | tupleCons _ _ i1 i2 =>
    intro c h'; cases h' with | tupleCons h1 h2 => exact .tupleCons (i1 h1) (i2 h2)
  | mapCons _ _ _ i1 i2 =>
    intro c h'; cases h' with | mapCons _ h1 h2 => exact .mapCons _ (i1 h1) (i2 h2)
  | _ => exact id

theorem hasNan_some {b : Body} : HasNan (.some b) ↔ HasNan b := by simp [HasNan, parts]
theorem hasNan_enum {i : UInt32} {b : Body} : HasNan (.enum i b) ↔ HasNan b := by
  simp [HasNan, parts]
theorem hasNan_array {bs : List Body} : HasNan (.array bs) ↔ ∃ b ∈ bs, HasNan b := by
  simp only [HasNan, parts, List.mem_cons, mem_partsAll]
  constructor
  · rintro ⟨c, rfl | ⟨b, hb, hc⟩, h⟩
    · simp at h
    · exact ⟨b, hb, c, hc, h⟩
  · rintro ⟨b, hb, c, hc, h⟩
    exact ⟨c, .inr ⟨b, hb, hc⟩, h⟩
theorem hasNan_tuple {bs : List Body} : HasNan (.tuple bs) ↔ ∃ b ∈ bs, HasNan b := by
  simp only [HasNan, parts, List.mem_cons, mem_partsAll]
  constructor
  · rintro ⟨c, rfl | ⟨b, hb, hc⟩, h⟩
    · simp at h
    · exact ⟨b, hb, c, hc, h⟩
  · rintro ⟨b, hb, c, hc, h⟩
    exact ⟨c, .inr ⟨b, hb, hc⟩, h⟩
theorem hasNan_map {es : List (String × Body)} : HasNan (.map es) ↔ ∃ e ∈ es, HasNan e.2 := by
  simp only [HasNan, parts, List.mem_cons, mem_partsEntries]
  constructor
  · rintro ⟨c, rfl | ⟨b, hb, hc⟩, h⟩
    · simp at h
    · exact ⟨b, hb, c, hc, h⟩
  · rintro ⟨b, hb, c, hc, h⟩
    exact ⟨c, .inr ⟨b, hb, hc⟩, h⟩

theorem Alike.no_nan {a b : Body} (h : Alike a b) : ¬ HasNan a := by
  induction h with
  | float32 h => simpa [HasNan, parts] using h.1
  | float64 h => simpa [HasNan, parts] using h.1
  | some _ ih => rwa [hasNan_some]
  | enum _ _ ih => rwa [hasNan_enum]
  | arrayNil => simp [hasNan_array]
  | tupleNil => simp [hasNan_tuple]
  | mapNil => simp [hasNan_map]
  | arrayCons _ _ i1 i2 =>
    rw [hasNan_array] at i2 ⊢
    simpa [i1] using i2
  | tupleCons _ _ i1 i2 =>
    rw [hasNan_tuple] at i2 ⊢
    simpa [i1] using i2
  | mapCons _ _ _ i1 i2 =>
    rw [hasNan_map] at i2 ⊢
    simpa [i1] using i2
  | _ => simp [HasNan, parts]

mutual
theorem alike_self : (b : Body) → ¬ HasNan b → Alike b b
  | .some a, h => .some (alike_self a fun hn => h (hasNan_some.mpr hn))
  | .enum _ a, h => .enum _ (alike_self a fun hn => h (hasNan_enum.mpr hn))
  | .array as, h => (alikeAll_self as fun b hb hn => h (hasNan_array.mpr ⟨b, hb, hn⟩)).1
  | .tuple as, h => (alikeAll_self as fun b hb hn => h (hasNan_tuple.mpr ⟨b, hb, hn⟩)).2
  | .map es, h => alikeEntries_self es fun b hb hn => h (hasNan_map.mpr ⟨b, hb, hn⟩)
  | .float32 v, h => .float32 ⟨fun hn => h ⟨_, self_mem_parts _, .inl ⟨v, rfl, hn⟩⟩, rfl⟩
  | .float64 v, h => .float64 ⟨fun hn => h ⟨_, self_mem_parts _, .inr ⟨v, rfl, hn⟩⟩, rfl⟩
  | .unit, _ => .unit
  | .none, _ => .none
  | .boolean _, _ => .boolean _
  | .uint8 _, _ => .uint8 _
  | .uint16 _, _ => .uint16 _
  | .uint32 _, _ => .uint32 _
  | .uint64 _, _ => .uint64 _
  | .int8 _, _ => .int8 _
  | .int16 _, _ => .int16 _
  | .int32 _, _ => .int32 _
  | .int64 _, _ => .int64 _
  | .bigUInt _, _ => .bigUInt _
  | .bigInt _, _ => .bigInt _
  | .bigDecimal _, _ => .bigDecimal _
  | .string _, _ => .string _
  | .binary _, _ => .binary _
  | .date _, _ => .date _
  | .dateTime _, _ => .dateTime _
theorem alikeAll_self : (bs : List Body) → (∀ b ∈ bs, ¬ HasNan b) →
    Alike (.array bs) (.array bs) ∧ Alike (.tuple bs) (.tuple bs)
  | [], _ => ⟨.arrayNil, .tupleNil⟩
  | b :: bs, h =>
    have h1 := alike_self b (h b (by simp))
    have h2 := alikeAll_self bs fun c hc => h c (by simp [hc])
    ⟨.arrayCons h1 h2.1, .tupleCons h1 h2.2⟩
theorem alikeEntries_self : (es : List (String × Body)) → (∀ e ∈ es, ¬ HasNan e.2) →
    Alike (.map es) (.map es)
  | [], _ => .mapNil
  | (k, b) :: es, h =>
    .mapCons k (alike_self b (h (k, b) (by simp)))
      (alikeEntries_self es fun c hc => h c (by simp [hc]))
end

theorem hasZero_mono {b c : Body} (h : ∀ x ∈ parts c, x ∈ parts b) (hb : ¬ HasZero b) : ¬ HasZero c :=
  fun ⟨x, hx, hz⟩ => hb ⟨x, h x hx, hz⟩

theorem hasZero_array {bs : List Body} : HasZero (.array bs) ↔ ∃ b ∈ bs, HasZero b := by
  simp only [HasZero, parts, List.mem_cons, mem_partsAll]
  constructor
  · rintro ⟨c, rfl | ⟨b, hb, hc⟩, h⟩
    · simp at h
    · exact ⟨b, hb, c, hc, h⟩
  · rintro ⟨b, hb, c, hc, h⟩
    exact ⟨c, .inr ⟨b, hb, hc⟩, h⟩
theorem hasZero_tuple {bs : List Body} : HasZero (.tuple bs) ↔ ∃ b ∈ bs, HasZero b := by
  simp only [HasZero, parts, List.mem_cons, mem_partsAll]
  constructor
  · rintro ⟨c, rfl | ⟨b, hb, hc⟩, h⟩
    · simp at h
    · exact ⟨b, hb, c, hc, h⟩
  · rintro ⟨b, hb, c, hc, h⟩
    exact ⟨c, .inr ⟨b, hb, hc⟩, h⟩
theorem hasZero_map {es : List (String × Body)} : HasZero (.map es) ↔ ∃ e ∈ es, HasZero e.2 := by
  simp only [HasZero, parts, List.mem_cons, mem_partsEntries]
  constructor
  · rintro ⟨c, rfl | ⟨b, hb, hc⟩, h⟩
    · simp at h
    · exact ⟨b, hb, c, hc, h⟩
  · rintro ⟨b, hb, c, hc, h⟩
    exact ⟨c, .inr ⟨b, hb, hc⟩, h⟩

theorem Alike.identical {a b : Body} (h : Alike a b) : ¬ HasZero a → a = b := by
  induction h with
  | @float32 v w h =>
    intro hz
    rw [single_inj h fun h0 => hz ⟨_, self_mem_parts _, .inl ⟨v, rfl, h0⟩⟩]
  | @float64 v w h =>
    intro hz
    rw [double_inj h fun h0 => hz ⟨_, self_mem_parts _, .inr ⟨v, rfl, h0⟩⟩]
  | some _ ih => intro hz; rw [ih (hasZero_mono (fun x hx => by simp [parts, hx]) hz)]
  | enum _ _ ih => intro hz; rw [ih (hasZero_mono (fun x hx => by simp [parts, hx]) hz)]
  | arrayCons _ _ i1 i2 =>
    intro hz
    rw [hasZero_array] at hz i2
    have e := i2 fun ⟨b, hb, h⟩ => hz ⟨b, by simp [hb], h⟩
    rw [i1 fun h => hz ⟨_, by simp, h⟩, (Body.array.inj e)]
  | tupleCons _ _ i1 i2 =>
    intro hz
    rw [hasZero_tuple] at hz i2
    have e := i2 fun ⟨b, hb, h⟩ => hz ⟨b, by simp [hb], h⟩
    rw [i1 fun h => hz ⟨_, by simp, h⟩, (Body.tuple.inj e)]
  | mapCons k _ _ i1 i2 =>
    intro hz
    rw [hasZero_map] at hz i2
    have e := i2 fun ⟨b, hb, h⟩ => hz ⟨b, by simp [hb], h⟩
    rw [i1 fun h => hz ⟨(k, _), by simp, h⟩, (Body.map.inj e)]
  | _ => intro _; rfl

theorem Alike.counts {a b : Body} (h : Alike a b) :
    (∀ as bs, a = .array as → b = .array bs → as.length = bs.length) ∧
    (∀ as bs, a = .tuple as → b = .tuple bs → as.length = bs.length) ∧
    ∀ es fs, a = .map es → b = .map fs → es.length = fs.length := by
  induction h with
  | arrayNil | tupleNil | mapNil => simp +contextual
  | arrayCons _ _ _ ih =>
    have := ih.1 _ _ rfl rfl
    refine ⟨?_, by simp, by simp⟩
    rintro _ _ ⟨⟩ ⟨⟩
    simpa using this
  | tupleCons _ _ _ ih =>
    have := ih.2.1 _ _ rfl rfl
    refine ⟨by simp, ?_, by simp⟩
    rintro _ _ ⟨⟩ ⟨⟩
    simpa using this
  | mapCons _ _ _ _ ih =>
    have := ih.2.2 _ _ rfl rfl
    refine ⟨by simp, by simp, ?_⟩
    rintro _ _ ⟨⟩ ⟨⟩
    simpa using this
  | _ => simp

theorem Alike.length {a b : Body} (h : Alike a b) :
    (bodyWire a).length = (bodyWire b).length := by
  induction h with
  | float32 | float64 => simp only [bodyWire, length_leBytes]
  | some _ ih => simp [bodyWire, ih]
  | enum _ _ ih => simp [bodyWire, ih]
  | arrayCons _ h i1 i2 =>
    have hc := h.counts.1 _ _ rfl rfl
    simp only [bodyWire, bodiesWire, List.length_append, List.length_cons, hc] at *
    omega
  | tupleCons _ _ i1 i2 => simp only [bodyWire, bodiesWire, List.length_append] at *; omega
  | mapCons _ _ h i1 i2 =>
    have hc := h.counts.2.2 _ _ rfl rfl
    simp only [bodyWire, entriesWire, List.length_append, List.length_cons, hc] at *
    omega
  | _ => rfl

end Body
namespace Body

theorem Alike.conforms {a b : Body} (h : Alike a b) : ∀ {s : Header}, Conforms s a → Conforms s b := by
  induction h with
  | float32 | float64 => intro s hs; cases hs; constructor
  | some _ ih => intro s hs; cases hs with | some _ _ hs => exact .some _ _ (ih hs)
  | enum _ _ ih => intro s hs; cases hs with | enum _ _ _ _ h1 h2 => exact .enum _ _ _ _ h1 (ih h2)
  | arrayCons _ _ i1 i2 =>
    intro s hs
    cases hs with
    | array _ _ h =>
      have h2 := i2 (.array _ _ fun c hc => h c (by simp [hc]))
      cases h2 with
      | array _ _ h2 =>
        exact .array _ _ fun c hc => by
          rcases List.mem_cons.mp hc with rfl | hc
          · exact i1 (h _ (by simp))
          · exact h2 c hc
  | tupleCons _ _ i1 i2 =>
    intro s hs
    cases hs with
    | tuple hs _ hl h =>
      cases hs with
      | nil => simp at hl
      | cons s hs =>
        have h2 := i2 (.tuple hs _ (by simpa using hl) fun i x y hx hy =>
          h (i + 1) x y (by simpa using hx) (by simpa using hy))
        cases h2 with
        | tuple _ _ hl2 h2 =>
          refine .tuple _ _ (by simpa using hl2) fun i x y hx hy => ?_
          cases i with
          | zero =>
            simp only [List.getElem?_cons_zero, Option.some.injEq] at hx hy
            subst hx hy
            exact i1 (h 0 _ _ rfl rfl)
          | succ i => exact h2 i x y (by simpa using hx) (by simpa using hy)
  | mapCons k _ _ i1 i2 =>
    intro s hs
    cases hs with
    | map _ _ h =>
      have h2 := i2 (.map _ _ fun c hc => h c (by simp [hc]))
      cases h2 with
      | map _ _ h2 =>
        exact .map _ _ fun c hc => by
          rcases List.mem_cons.mp hc with rfl | hc
          · exact i1 (h (k, _) (by simp))
          · exact h2 c hc
  | _ => exact id

/-- All maps in the body are in key order. -/
def Sorted (b : Body) : Prop := ∀ es, .map es ∈ parts b → Ascending es

theorem sorted_mono {b c : Body} (h : ∀ x ∈ parts c, x ∈ parts b) (hb : Sorted b) : Sorted c :=
  fun es he => hb es (h _ he)

theorem sorted_of_exists {t : Target} {b : Body} (h : Exists t b) : Sorted b :=
  fun es he => (h _ he).2 es rfl

theorem mem_array {bs : List Body} {b : Body} (h : b ∈ bs) :
    ∀ x ∈ parts b, x ∈ parts (.array bs) := fun x hx => by
  simp only [parts, List.mem_cons, mem_partsAll]; exact .inr ⟨b, h, hx⟩
theorem mem_tuple {bs : List Body} {b : Body} (h : b ∈ bs) :
    ∀ x ∈ parts b, x ∈ parts (.tuple bs) := fun x hx => by
  simp only [parts, List.mem_cons, mem_partsAll]; exact .inr ⟨b, h, hx⟩
theorem mem_map {es : List (String × Body)} {e : String × Body} (h : e ∈ es) :
    ∀ x ∈ parts e.2, x ∈ parts (.map es) := fun x hx => by
  simp only [parts, List.mem_cons, mem_partsEntries]; exact .inr ⟨e, h, hx⟩

/-- Two maps in key order with the same keys have them in the same positions. -/
theorem alike_maps : (es fs : List (String × Body)) → Ascending es → Ascending fs →
    (∀ k, (∃ a, (k, a) ∈ es) ↔ ∃ b, (k, b) ∈ fs) →
    (∀ k a b, (k, a) ∈ es → (k, b) ∈ fs → Alike a b) → Alike (.map es) (.map fs)
  | [], [], _, _, _, _ => .mapNil
  | [], (k, b) :: fs, _, _, h, _ => by
    obtain ⟨a, ha⟩ := (h k).mpr ⟨b, by simp⟩
    simp at ha
  | (k, a) :: es, [], _, _, h, _ => by
    obtain ⟨b, hb⟩ := (h k).mp ⟨a, by simp⟩
    simp at hb
  | (k, a) :: es, (l, b) :: fs, he, hf, h, hv => by
    rw [Ascending, List.pairwise_cons] at he hf
    have hkl : k = l := by
      obtain ⟨x, hx⟩ := (h k).mp ⟨a, by simp⟩
      obtain ⟨y, hy⟩ := (h l).mpr ⟨b, by simp⟩
      rcases List.mem_cons.mp hx with hx | hx
      · exact congrArg Prod.fst hx
      · rcases List.mem_cons.mp hy with hy | hy
        · exact (congrArg Prod.fst hy).symm
        · exact absurd (List.lt_trans (hf.1 _ hx) (he.1 _ hy)) (List.lt_irrefl _)
    subst hkl
    refine .mapCons k (hv k a b (by simp) (by simp)) (alike_maps es fs he.2 hf.2 (fun k' => ?_)
      fun k' x y hx hy => hv k' x y (by simp [hx]) (by simp [hy]))
    constructor
    · rintro ⟨x, hx⟩
      obtain ⟨y, hy⟩ := (h k').mp ⟨x, by simp [hx]⟩
      rcases List.mem_cons.mp hy with hy | hy
      · have := he.1 _ hx
        rw [show k' = k from congrArg Prod.fst hy] at this
        exact absurd this (List.lt_irrefl _)
      · exact ⟨y, hy⟩
    · rintro ⟨y, hy⟩
      obtain ⟨x, hx⟩ := (h k').mpr ⟨y, by simp [hy]⟩
      rcases List.mem_cons.mp hx with hx | hx
      · have := hf.1 _ hy
        rw [show k' = k from congrArg Prod.fst hx] at this
        exact absurd this (List.lt_irrefl _)
      · exact ⟨x, hx⟩

theorem alike_arrays : (as bs : List Body) → as.length = bs.length →
    (∀ (i : Nat) (a b : Body), as[i]? = Option.some a → bs[i]? = Option.some b → Alike a b) →
    Alike (.array as) (.array bs) ∧ Alike (.tuple as) (.tuple bs)
  | [], [], _, _ => ⟨.arrayNil, .tupleNil⟩
  | [], _ :: _, h, _ => by simp at h
  | _ :: _, [], h, _ => by simp at h
  | a :: as, b :: bs, h, hv => by
    have h1 := hv 0 a b rfl rfl
    have h2 := alike_arrays as bs (by simpa using h) fun i x y hx hy =>
      hv (i + 1) x y (by simpa using hx) (by simpa using hy)
    exact ⟨.arrayCons h1 h2.1, .tupleCons h1 h2.2⟩

theorem alike_of_same {a b : Body} (h : SameBody a b) : Sorted a → Sorted b → Alike a b := by
  induction h with
  | float32 h => intro _ _; exact .float32 h
  | float64 h => intro _ _; exact .float64 h
  | some _ ih =>
    intro ha hb
    exact .some (ih (sorted_mono (fun x hx => by simp [parts, hx]) ha)
      (sorted_mono (fun x hx => by simp [parts, hx]) hb))
  | enum _ _ ih =>
    intro ha hb
    exact .enum _ (ih (sorted_mono (fun x hx => by simp [parts, hx]) ha)
      (sorted_mono (fun x hx => by simp [parts, hx]) hb))
  | array hl _ ih =>
    intro ha hb
    exact (alike_arrays _ _ hl fun i x y hx hy => ih i x y hx hy
      (sorted_mono (mem_array (List.mem_of_getElem? hx)) ha)
      (sorted_mono (mem_array (List.mem_of_getElem? hy)) hb)).1
  | tuple hl _ ih =>
    intro ha hb
    exact (alike_arrays _ _ hl fun i x y hx hy => ih i x y hx hy
      (sorted_mono (mem_tuple (List.mem_of_getElem? hx)) ha)
      (sorted_mono (mem_tuple (List.mem_of_getElem? hy)) hb)).2
  | map hk _ ih =>
    intro ha hb
    exact alike_maps _ _ (ha _ (self_mem_parts _)) (hb _ (self_mem_parts _)) hk fun k x y hx hy =>
      ih k x y hx hy (sorted_mono (mem_map hx) ha) (sorted_mono (mem_map hy) hb)
  | _ => intro _ _; constructor

theorem same_of_alike {a b : Body} (h : Alike a b) : Sorted a → SameBody a b := by
  induction h with
  | float32 h => intro _; exact .float32 h
  | float64 h => intro _; exact .float64 h
  | some _ ih => intro ha; exact .some (ih (sorted_mono (fun x hx => by simp [parts, hx]) ha))
  | enum _ _ ih => intro ha; exact .enum _ (ih (sorted_mono (fun x hx => by simp [parts, hx]) ha))
  | arrayNil => intro _; exact .array rfl (by simp)
  | tupleNil => intro _; exact .tuple rfl (by simp)
  | mapNil => intro _; exact .map (by simp) (by simp)
  | arrayCons _ _ i1 i2 =>
    intro ha
    have h2 := i2 fun es he => ha es (by
      simp only [parts, partsAll, List.mem_cons, List.mem_append, reduceCtorEq, false_or] at he ⊢
      exact .inr he)
    cases h2 with
    | array hl h2 =>
      refine .array (by simpa using hl) fun i x y hx hy => ?_
      cases i with
      | zero =>
        simp only [List.getElem?_cons_zero, Option.some.injEq] at hx hy
        subst hx hy
        exact i1 (sorted_mono (mem_array (by simp)) ha)
      | succ i => exact h2 i x y (by simpa using hx) (by simpa using hy)
  | tupleCons _ _ i1 i2 =>
    intro ha
    have h2 := i2 fun es he => ha es (by
      simp only [parts, partsAll, List.mem_cons, List.mem_append, reduceCtorEq, false_or] at he ⊢
      exact .inr he)
    cases h2 with
    | tuple hl h2 =>
      refine .tuple (by simpa using hl) fun i x y hx hy => ?_
      cases i with
      | zero =>
        simp only [List.getElem?_cons_zero, Option.some.injEq] at hx hy
        subst hx hy
        exact i1 (sorted_mono (mem_tuple (by simp)) ha)
      | succ i => exact h2 i x y (by simpa using hx) (by simpa using hy)
  | @mapCons k a b es fs _ _ i1 i2 =>
    intro ha
    have asc := ha _ (self_mem_parts _)
    rw [Ascending, List.pairwise_cons] at asc
    have h2 := i2 fun es' he => by
      simp only [parts, List.mem_cons, Body.map.injEq] at he
      rcases he with rfl | he
      · exact asc.2
      · refine ha es' ?_
        simp only [parts, partsEntries, List.mem_cons, List.mem_append]
        exact .inr (.inr he)
    cases h2 with
    | map hk h2 =>
      refine .map (fun k' => ?_) fun k' x y hx hy => ?_
      · simp only [List.mem_cons, Prod.mk.injEq]
        constructor
        · rintro ⟨x, ⟨rfl, rfl⟩ | hx⟩
          · exact ⟨b, .inl ⟨rfl, rfl⟩⟩
          · obtain ⟨y, hy⟩ := (hk k').mp ⟨x, hx⟩
            exact ⟨y, .inr hy⟩
        · rintro ⟨y, ⟨rfl, rfl⟩ | hy⟩
          · exact ⟨a, .inl ⟨rfl, rfl⟩⟩
          · obtain ⟨x, hx⟩ := (hk k').mpr ⟨y, hy⟩
            exact ⟨x, .inr hx⟩
      · simp only [List.mem_cons, Prod.mk.injEq] at hx hy
        rcases hx with ⟨rfl, rfl⟩ | hx <;> rcases hy with ⟨e, rfl⟩ | hy
        · exact i1 (sorted_mono (mem_map (e := (k', x)) (by simp)) ha)
        · obtain ⟨x', hx'⟩ := (hk k').mpr ⟨y, hy⟩
          exact absurd (asc.1 _ hx') (List.lt_irrefl _)
        · subst e
          exact absurd (asc.1 _ hx) (List.lt_irrefl _)
        · exact h2 k' x y hx hy
  | _ => intro _; constructor

end Body

/-! ## Headers -/

namespace Header

mutual
theorem eq_of_eq : (a b : Header) → eq a b = true → a = b
  | .optional a, x => by
    intro h
    cases x <;> simp only [eq, Bool.false_eq_true] at h
    rw [eq_of_eq a _ h]
  | .array a, x => by
    intro h
    cases x <;> simp only [eq, Bool.false_eq_true] at h
    rw [eq_of_eq a _ h]
  | .map a, x => by
    intro h
    cases x <;> simp only [eq, Bool.false_eq_true] at h
    rw [eq_of_eq a _ h]
  | .tuple as, x => by
    intro h
    cases x <;> simp only [eq, Bool.false_eq_true] at h
    rw [eqs_of_eqAll as _ h]
  | .enum as, x => by
    intro h
    cases x <;> simp only [eq, Bool.false_eq_true] at h
    rw [eqs_of_eqAll as _ h]
  | .unit, x | .boolean, x | .uint8, x | .uint16, x | .uint32, x | .uint64, x
  | .int8, x | .int16, x | .int32, x | .int64, x | .float32, x | .float64, x
  | .bigUInt, x | .bigInt, x | .bigDecimal, x | .string, x | .binary, x | .date, x
  | .dateTime, x => by
    intro h
    cases x <;> simp only [eq, Bool.false_eq_true] at h <;> rfl
theorem eqs_of_eqAll : (as bs : List Header) → eqAll as bs = true → as = bs
  | [], x => by
    intro h
    cases x <;> simp only [eqAll, Bool.false_eq_true] at h
    rfl
  | a :: as, x => by
    intro h
    cases x <;> simp only [eqAll, Bool.false_eq_true, Bool.and_eq_true] at h
    rw [eq_of_eq a _ h.1, eqs_of_eqAll as _ h.2]
end

mutual
theorem eq_self : (a : Header) → eq a a = true
  | .optional a => by simp [eq, eq_self a]
  | .array a => by simp [eq, eq_self a]
  | .map a => by simp [eq, eq_self a]
  | .tuple as => by simp [eq, eqAll_self as]
  | .enum as => by simp [eq, eqAll_self as]
  | .unit | .boolean | .uint8 | .uint16 | .uint32 | .uint64
  | .int8 | .int16 | .int32 | .int64 | .float32 | .float64
  | .bigUInt | .bigInt | .bigDecimal | .string | .binary | .date
  | .dateTime => by simp [eq]
theorem eqAll_self : (as : List Header) → eqAll as as = true
  | [] => by simp [eqAll]
  | a :: as => by simp [eqAll, eq_self a, eqAll_self as]
end

theorem eq_iff (a b : Header) : eq a b = true ↔ a = b :=
  ⟨eq_of_eq a b, fun h => h ▸ eq_self a⟩

end Header

/-! ## Order -/

/-- The order of byte strings carries over along an injection. -/
theorem ordered_of {α : Type} {eq lt : α → α → Bool} (f : α → List UInt8)
    (hf : ∀ a b, f a = f b → a = b) (he : ∀ a b, eq a b = true ↔ a = b)
    (hl : ∀ a b, lt a b = true ↔ f a < f b) : OrderedBy eq lt := by
  refine ⟨he, fun a b => ?_, fun a b c h1 h2 => ?_⟩
  · simp only [← Bool.not_eq_true, hl, he]
    by_cases h1 : f a < f b
    · refine .inl ⟨h1, fun h => ?_, fun h => ?_⟩
      · subst h; exact List.lt_irrefl _ h1
      · exact List.lt_irrefl _ (List.lt_trans h1 h)
    · by_cases h2 : f b < f a
      · refine .inr (.inr ⟨h1, fun h => ?_, h2⟩)
        subst h; exact h1 h2
      · exact .inr (.inl ⟨h1, hf a b (List.le_antisymm (List.not_lt.mp h2) (List.not_lt.mp h1)), h2⟩)
  · rw [hl] at *
    exact List.lt_trans h1 h2

/-- Bytes first, then an integer. -/
theorem ordered_pair {α : Type} {eq lt : α → α → Bool} (f : α → List UInt8) (g : α → Int)
    (hf : ∀ a b, f a = f b → g a = g b → a = b) (he : ∀ a b, eq a b = true ↔ a = b)
    (hl : ∀ a b, lt a b = true ↔ f a < f b ∨ f a = f b ∧ g a < g b) : OrderedBy eq lt := by
  refine ⟨he, fun a b => ?_, fun a b c h1 h2 => ?_⟩
  · simp only [← Bool.not_eq_true, hl, he]
    by_cases h1 : f a < f b
    · refine .inl ⟨.inl h1, fun h => ?_, fun h => ?_⟩
      · subst h; exact List.lt_irrefl _ h1
      · rcases h with h | h
        · exact List.lt_irrefl _ (List.lt_trans h1 h)
        · rw [h.1] at h1; exact List.lt_irrefl _ h1
    · by_cases h2 : f b < f a
      · refine .inr (.inr ⟨fun h => ?_, fun h => ?_, .inl h2⟩)
        · rcases h with h | h
          · exact h1 h
          · rw [h.1] at h2; exact List.lt_irrefl _ h2
        · subst h; exact h1 h2
      · have e := List.le_antisymm (List.not_lt.mp h2) (List.not_lt.mp h1)
        have e' := e.symm
        rcases Int.lt_trichotomy (g a) (g b) with h | h | h
        · refine .inl ⟨.inr ⟨e, h⟩, fun h' => ?_, fun h' => ?_⟩
          · subst h'; omega
          · rcases h' with h' | h'
            · exact h2 h'
            · omega
        · refine .inr (.inl ⟨fun h' => ?_, hf a b e h, fun h' => ?_⟩)
          · rcases h' with h' | h'
            · exact h1 h'
            · omega
          · rcases h' with h' | h'
            · exact h2 h'
            · omega
        · refine .inr (.inr ⟨fun h' => ?_, fun h' => ?_, .inr ⟨e', h⟩⟩)
          · rcases h' with h' | h'
            · exact h1 h'
            · omega
          · subst h'; omega
  · rw [hl] at *
    rcases h1 with h1 | h1 <;> rcases h2 with h2 | h2
    · exact .inl (List.lt_trans h1 h2)
    · exact .inl (h2.1 ▸ h1)
    · exact .inl (h1.1 ▸ h2)
    · exact .inr ⟨h1.1.trans h2.1, by omega⟩

/-- Two integers. -/
theorem ordered_ints {α : Type} {eq lt : α → α → Bool} (f g : α → Int)
    (hf : ∀ a b, f a = f b → g a = g b → a = b) (he : ∀ a b, eq a b = true ↔ a = b)
    (hl : ∀ a b, lt a b = true ↔ f a < f b ∨ f a = f b ∧ g a < g b) : OrderedBy eq lt := by
  refine ⟨he, fun a b => ?_, fun a b c h1 h2 => ?_⟩
  · simp only [← Bool.not_eq_true, hl, he]
    have : a = b ↔ f a = f b ∧ g a = g b := ⟨fun h => by subst h; simp, fun h => hf a b h.1 h.2⟩
    rw [this]
    omega
  · rw [hl] at *
    omega

end Dlhn
