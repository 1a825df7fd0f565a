import Verif.Spec.Bounds
import Verif.Proof.Size
import Verif.Proof.HumanReadable
import Verif.Proof.DeriveBody
/-! # How many bytes the values of a type take -/
namespace Dlhn.Spec

/-- The numbers in `S` lie between `lo` and `hi`, and if `P` then the bounds are reached, or
`S` has members above everything below `N`. -/
structure Sized (N : Nat) (S : Nat → Prop) (P : Prop) (lo : Nat) (hi : Option Nat) : Prop where
  ge : ∀ n, S n → lo ≤ n
  le : ∀ n, S n → ∀ m, hi = some m → n ≤ m
  lo_mem : P → S lo
  hi_mem : P → ∀ m, hi = some m → S m
  unbounded : P → hi = none → ∀ k, k < N → ∃ n, k ≤ n ∧ S n

namespace Sized

variable {N : Nat} {S T U : Nat → Prop} {P Q R : Prop} {a c : Nat} {b d : Option Nat}

theorem congr (h : Sized N S P a b) (hST : ∀ n, T n ↔ S n) (hP : Q → P) : Sized N T Q a b where
  ge n hn := h.ge n ((hST n).mp hn)
  le n hn := h.le n ((hST n).mp hn)
  lo_mem q := (hST _).mpr (h.lo_mem (hP q))
  hi_mem q m hm := (hST _).mpr (h.hi_mem (hP q) m hm)
  unbounded q hb k hk := by
    obtain ⟨n, h1, h2⟩ := h.unbounded (hP q) hb k hk
    exact ⟨n, h1, (hST n).mpr h2⟩

/-- One length only. -/
theorem one (n : Nat) : Sized N (fun k => k = n) P n (some n) where
  ge k h := by omega
  le k h m hm := by cases hm; omega
  lo_mem _ := rfl
  hi_mem _ m hm := by cases hm; rfl
  unbounded _ h := by cases h

theorem add (h1 : Sized N S P a b) (h2 : Sized N T Q c d) :
    Sized N (fun n => ∃ x y, S x ∧ T y ∧ n = x + y) (P ∧ Q) (a + c) (addBound b d) where
  ge n h := by
    obtain ⟨x, y, hx, hy, rfl⟩ := h
    have := h1.ge x hx; have := h2.ge y hy; omega
  le n h m hm := by
    obtain ⟨x, y, hx, hy, rfl⟩ := h
    cases b <;> cases d <;> simp only [addBound] at hm
    all_goals first | (cases hm; done) | skip
    have := h1.le x hx _ rfl; have := h2.le y hy _ rfl
    cases hm; omega
  lo_mem p := ⟨a, c, h1.lo_mem p.1, h2.lo_mem p.2, rfl⟩
  hi_mem p m hm := by
    cases b <;> cases d <;> simp only [addBound] at hm
    all_goals first | (cases hm; done) | skip
    cases hm
    exact ⟨_, _, h1.hi_mem p.1 _ rfl, h2.hi_mem p.2 _ rfl, rfl⟩
  unbounded p hb k hk := by
    cases b with
    | none =>
      obtain ⟨n, hn, hs⟩ := h1.unbounded p.1 rfl k hk
      exact ⟨n + c, by omega, n, c, hs, h2.lo_mem p.2, rfl⟩
    | some b =>
      cases d with
      | some d => cases hb
      | none =>
        obtain ⟨n, hn, hs⟩ := h2.unbounded p.2 rfl k hk
        exact ⟨a + n, by omega, a, n, h1.lo_mem p.1, hs, rfl⟩

theorem union (h1 : Sized N S P a b) (h2 : Sized N T Q c d) :
    Sized N (fun n => S n ∨ T n) (P ∧ Q) (min a c) (maxBound b d) where
  ge n h := by
    rcases h with h | h
    · have := h1.ge n h; omega
    · have := h2.ge n h; omega
  le n h m hm := by
    cases b <;> cases d <;> simp only [maxBound] at hm
    all_goals first | (cases hm; done) | skip
    cases hm
    rcases h with h | h
    · have := h1.le n h _ rfl; omega
    · have := h2.le n h _ rfl; omega
  lo_mem p := by
    rcases Nat.le_total a c with h | h
    · rw [Nat.min_eq_left h]; exact .inl (h1.lo_mem p.1)
    · rw [Nat.min_eq_right h]; exact .inr (h2.lo_mem p.2)
  hi_mem p m hm := by
    cases b <;> cases d <;> simp only [maxBound] at hm
    all_goals first | (cases hm; done) | skip
    rename_i b d
    cases hm
    rcases Nat.le_total b d with h | h
    · rw [Nat.max_eq_right h]; exact .inr (h2.hi_mem p.2 _ rfl)
    · rw [Nat.max_eq_left h]; exact .inl (h1.hi_mem p.1 _ rfl)
  unbounded p hb k hk := by
    cases b with
    | none =>
      obtain ⟨n, hn, hs⟩ := h1.unbounded p.1 rfl k hk
      exact ⟨n, hn, .inl hs⟩
    | some b =>
      cases d with
      | some d => cases hb
      | none =>
        obtain ⟨n, hn, hs⟩ := h2.unbounded p.2 rfl k hk
        exact ⟨n, hn, .inr hs⟩

end Sized

/-! ## Integers -/

theorem varint_le (w n : Nat) : (varint w n).length ≤ w / 8 + 1 := by
  rw [length_varint, varintLen]; exact Nat.min_le_right _ _

theorem varint_zero (w : Nat) : (varint w 0).length = 1 := by
  rw [length_varint, varintLen, groups]
  simp

theorem varint_16 : (varint 16 65535).length = 3 := by simp [length_varint, varintLen, groups]
theorem varint_32 : (varint 32 4294967295).length = 5 := by simp [length_varint, varintLen, groups]
theorem varint_64 : (varint 64 18446744073709551615).length = 9 := by
  simp [length_varint, varintLen, groups]
theorem varint_64_32 : (varint 64 4294967295).length = 5 := by
  simp [length_varint, varintLen, groups]

/-- An integer type: `f` gives the number written. -/
theorem sized_int {N : Nat} {P : Prop} {α : Type} (w : Nat) (f : α → Nat) (x y : α) (hx : f x = 0)
    (hy : (varint w (f y)).length = w / 8 + 1) :
    Sized N (fun n => ∃ v, (varint w (f v)).length = n) P 1 (some (w / 8 + 1)) where
  ge n h := by obtain ⟨v, rfl⟩ := h; exact varint_pos _ _
  le n h m hm := by obtain ⟨v, rfl⟩ := h; cases hm; exact varint_le _ _
  lo_mem _ := ⟨x, by rw [hx, varint_zero]⟩
  hi_mem _ m hm := by cases hm; exact ⟨y, hy⟩
  unbounded _ h := by cases h

/-! ## Counts -/

theorem count_le {t : Target} {n : Nat} (h : n < 2 ^ t.ptr.bits) :
    (varint 64 n).length ≤ maxCount t := by
  cases ht : t.ptr with
  | w32 =>
    rw [ht] at h
    have h2 : n < 2 ^ 32 := h
    have h3 := De.varintLen_mono 64 (show n ≤ 4294967295 by omega)
    rw [← length_varint, ← length_varint, varint_64_32] at h3
    rw [maxCount, ht]; exact h3
  | w64 => rw [maxCount, ht]; exact varint_le 64 n

theorem count_max (t : Target) : (varint 64 (2 ^ t.ptr.bits - 1)).length = maxCount t := by
  cases ht : t.ptr with
  | w32 => rw [maxCount, ht]; exact varint_64_32
  | w64 => rw [maxCount, ht]; exact varint_64

theorem one_lt (t : Target) : 1 < 2 ^ t.ptr.bits := by
  cases t.ptr <;> decide

/-! ## Strings -/

theorem utf8_empty : utf8 "" = [] := by decide

/-- A string of any length. -/
theorem string_of_length (n : Nat) : ∃ s, (utf8 s).length = n := by
  induction n with
  | zero => exact ⟨"", by rw [utf8_empty]; rfl⟩
  | succ n ih =>
    obtain ⟨s, hs⟩ := ih
    refine ⟨s ++ "a", ?_⟩
    rw [utf8_append, List.length_append, hs]
    have : (utf8 "a").length = 1 := by decide
    rw [this]

/-- Blocks of bytes. -/
theorem sized_block {N : Nat} {P : Prop} {α : Type} (f : α → List UInt8)
    (hf : ∀ n, n < N → ∃ x, (f x).length = n) (hN : 0 < N) :
    Sized N (fun n => ∃ x, (f x).length < N ∧ (block (f x)).length = n) P 1 none where
  ge n h := by
    obtain ⟨x, -, rfl⟩ := h
    have := block_length (f x); omega
  le n h m hm := by cases hm
  lo_mem _ := by
    obtain ⟨x, hx⟩ := hf 0 hN
    exact ⟨x, by omega, by rw [De.length_block, hx, ← length_varint, varint_zero]⟩
  hi_mem _ m hm := by cases hm
  unbounded _ _ k hk := by
    obtain ⟨x, hx⟩ := hf k hk
    exact ⟨_, by have := block_length (f x); omega, x, by omega, rfl⟩

theorem replicate_wire {n : Nat} {v : Val} :
    (wireAll (List.replicate n v)).length = n * (wire v).length := by
  induction n with
  | zero => simp [wireAll]
  | succ n ih => rw [List.replicate_succ, wireAll, List.length_append, ih, Nat.succ_mul]; omega

theorem wireAll_zero {vs : List Val} (h : ∀ v ∈ vs, (wire v).length = 0) :
    (wireAll vs).length = 0 := by
  induction vs with
  | nil => rfl
  | cons v vs ih =>
    rw [wireAll, List.length_append, h v List.mem_cons_self,
      ih fun w hw => h w (List.mem_cons_of_mem _ hw)]

/-- The lengths of the values of a type. -/
def Lens (t : Target) (ty : Ty) (n : Nat) : Prop := ∃ v, Has t ty v ∧ (wire v).length = n

theorem sized_seq {t : Target} {ty : Ty} {P : Prop} {lo : Nat} {hi : Option Nat}
    (h : Sized (2 ^ t.ptr.bits) (Lens t ty) P lo hi) :
    Sized (2 ^ t.ptr.bits) (Lens t (.seq ty)) P 1
      (if hi = some 0 then some (maxCount t) else none) where
  ge n hn := by
    obtain ⟨v, hv, rfl⟩ := hn
    exact wide_wire (.seq ty) (by simp [Wide]) v hv
  le n hn m hm := by
    obtain ⟨v, hv, rfl⟩ := hn
    rw [Has] at hv
    obtain ⟨vs, rfl, hl, hv⟩ := hv
    by_cases h0 : hi = some 0
    · rw [if_pos h0] at hm
      cases hm
      rw [wire, lengthPrefix, List.length_append, wireAll_zero]
      · exact count_le hl
      · intro w hw
        have := h.le _ ⟨w, hv w hw, rfl⟩ 0 h0
        omega
    · rw [if_neg h0] at hm; cases hm
  lo_mem _ := by
    refine ⟨.seq (some 0) [], ?_, ?_⟩
    · rw [Has]; exact ⟨[], rfl, Nat.two_pow_pos _, by simp⟩
    · simp [wire, wireAll, lengthPrefix, varint_zero]
  hi_mem p m hm := by
    by_cases h0 : hi = some 0
    · rw [if_pos h0] at hm
      cases hm
      obtain ⟨v, hv, hw⟩ := h.hi_mem p 0 h0
      refine ⟨.seq (some (List.replicate (2 ^ t.ptr.bits - 1) v).length)
        (List.replicate (2 ^ t.ptr.bits - 1) v), ?_, ?_⟩
      · rw [Has]
        refine ⟨_, rfl, ?_, ?_⟩
        · have := one_lt t
          rw [List.length_replicate]; omega
        · intro w hw
          rw [List.eq_of_mem_replicate hw]; exact hv
      · rw [wire, lengthPrefix, List.length_append, replicate_wire, hw, List.length_replicate,
          count_max]
        omega
    · rw [if_neg h0] at hm; cases hm
  unbounded p hb k hk := by
    cases hi with
    | none =>
      obtain ⟨n, hn, v, hv, hw⟩ := h.unbounded p rfl k hk
      refine ⟨_, ?_, .seq (some 1) [v], ?_, rfl⟩
      · simp only [wire, wireAll, List.length_append]; omega
      · rw [Has]
        exact ⟨[v], rfl, one_lt t, by intro w hw; simp at hw; subst hw; exact hv⟩
    | some m =>
      have h0 : m ≠ 0 := by
        intro h0
        subst h0
        rw [if_pos rfl] at hb
        cases hb
      obtain ⟨v, hv, hw⟩ := h.hi_mem p m rfl
      refine ⟨_, ?_, .seq (some (List.replicate k v).length) (List.replicate k v), ?_, rfl⟩
      · rw [wire, List.length_append, replicate_wire, hw]
        have := Nat.le_mul_of_pos_right k (Nat.pos_of_ne_zero h0)
        omega
      · rw [Has]
        refine ⟨_, rfl, by rw [List.length_replicate]; exact hk, ?_⟩
        intro w hw
        rw [List.eq_of_mem_replicate hw]; exact hv

theorem sized_map {t : Target} {ty : Ty} {P : Prop} {lo : Nat} {hi : Option Nat}
    (h : Sized (2 ^ t.ptr.bits) (Lens t ty) P lo hi) :
    Sized (2 ^ t.ptr.bits) (Lens t (.map .string ty)) P 1 none where
  ge n hn := by
    obtain ⟨v, hv, rfl⟩ := hn
    exact wide_wire (.map .string ty) (by simp [Wide]) v hv
  le n hn m hm := by cases hm
  lo_mem _ := by
    refine ⟨.map (some 0) [], ?_, ?_⟩
    · rw [Has]; exact ⟨[], rfl, Nat.two_pow_pos _, by simp⟩
    · simp [wire, wireEntries, lengthPrefix, varint_zero]
  hi_mem _ m hm := by cases hm
  unbounded p _ k hk := by
    obtain ⟨v, hv, -⟩ := h.lo_mem p
    obtain ⟨s, hs⟩ := string_of_length k
    refine ⟨_, ?_, .map (some 1) [(.str s, v)], ?_, rfl⟩
    · have := block_length (utf8 s)
      simp only [wire, wireEntries, List.length_append]; omega
    · rw [Has]
      refine ⟨[(.str s, v)], rfl, one_lt t, ?_⟩
      intro e he
      simp at he
      subst he
      exact ⟨by rw [Has]; exact ⟨s, rfl, by omega⟩, hv⟩

theorem ofNat_toNat {k : Nat} (h : k < 2 ^ 32) : (UInt32.ofNat k).toNat = k := by
  rw [UInt32.toNat_ofNat']; exact Nat.mod_eq_of_lt h

/-! ## Types -/

abbrev top (t : Target) : Nat := 2 ^ t.ptr.bits

/-- Leaf types, by their values. -/
theorem Sized.leaf {t : Target} {ty : Ty} {α : Type} {f : α → Val} {Q : α → Prop} {P : Prop}
    {S : Nat → Prop} {lo : Nat} {hi : Option Nat} (h : Sized (top t) S True lo hi)
    (hv : ∀ v, Has t ty v ↔ ∃ x, v = f x ∧ Q x)
    (hS : ∀ n, S n ↔ ∃ x, Q x ∧ (wire (f x)).length = n) :
    Sized (top t) (Lens t ty) P lo hi :=
  h.congr (fun n => by
    rw [hS]
    constructor
    · rintro ⟨v, h, hn⟩
      obtain ⟨x, rfl, hq⟩ := (hv v).mp h
      exact ⟨x, hq, hn⟩
    · rintro ⟨x, hq, hn⟩
      exact ⟨f x, (hv _).mpr ⟨x, rfl, hq⟩, hn⟩) fun _ => trivial

/-- A fixed number of bytes. -/
theorem sized_const {t : Target} {ty : Ty} {P : Prop} (n : Nat) (v0 : Val) (h0 : Has t ty v0)
    (h : ∀ v, Has t ty v → (wire v).length = n) : Sized (top t) (Lens t ty) P n (some n) :=
  (Sized.one (P := True) n).congr (fun k => by
    constructor
    · rintro ⟨v, hv, rfl⟩; exact h v hv
    · rintro rfl; exact ⟨v0, h0, h v0 h0⟩) fun _ => trivial

theorem sized_char {t : Target} {P : Prop} : Sized (top t) (Lens t .char) P 2 (some 5) where
  ge n h := by
    obtain ⟨v, hv, rfl⟩ := h
    rw [Has] at hv
    obtain ⟨c, rfl⟩ := hv
    have := block_length (utf8 (String.singleton c))
    have : 1 ≤ (utf8 (String.singleton c)).length := by
      have h : (utf8 (String.singleton c)).length = (String.singleton c).utf8ByteSize := rfl
      rw [h, String.utf8ByteSize_singleton]
      exact c.utf8Size_pos
    rw [wire]; omega
  le n h m hm := by
    obtain ⟨v, hv, rfl⟩ := h
    rw [Has] at hv
    obtain ⟨c, rfl⟩ := hv
    cases hm
    have h4 := Ser.length_utf8_singleton c
    have := De.varintLen_mono 64 (Nat.le_trans h4 (show 4 ≤ 127 by omega))
    have h2 : varintLen 64 127 = 1 := by simp [varintLen, groups]
    rw [wire, De.length_block]
    omega
  lo_mem _ := ⟨.char 'a', by rw [Has]; exact ⟨_, rfl⟩, by
    rw [wire, De.length_block]
    have : (utf8 (String.singleton 'a')).length = 1 := by decide
    rw [this]; simp [varintLen, groups]⟩
  hi_mem _ m hm := by
    cases hm
    refine ⟨.char (Char.ofNat 0x1F600), by rw [Has]; exact ⟨_, rfl⟩, ?_⟩
    rw [wire, De.length_block]
    have : (utf8 (String.singleton (Char.ofNat 0x1F600))).length = 4 := by decide
    rw [this]; simp [varintLen, groups]
  unbounded _ h := by cases h

mutual
theorem sized_ty {t : Target} : (ty : Ty) → Supported ty →
    Sized (top t) (Lens t ty) (Populated ty) (minSize ty) (maxSize t ty)
  | .bool, _ => sized_const 1 (.bool true) (by simp [Has]) fun v h => by
    rw [Has] at h; obtain ⟨x, rfl⟩ := h; simp [wire]
  | .i8, _ => sized_const 1 (.i8 0) (by simp [Has]) fun v h => by
    rw [Has] at h; obtain ⟨x, rfl⟩ := h; simp [wire]
  | .u8, _ => sized_const 1 (.u8 0) (by simp [Has]) fun v h => by
    rw [Has] at h; obtain ⟨x, rfl⟩ := h; simp [wire]
  | .i16, _ => Sized.leaf (f := Val.i16) (Q := fun _ => True)
    (sized_int 16 (fun v : Int16 => zigzag v.toInt) 0 (-32768) (by decide) (by
      rw [show zigzag (-32768 : Int16).toInt = 65535 by decide, varint_16]))
    (fun v => by rw [Has]; simp) (fun n => by simp only [wire, true_and])
  | .u16, _ => Sized.leaf (f := Val.u16) (Q := fun _ => True)
    (sized_int 16 (fun v : UInt16 => v.toNat) 0 65535 (by decide) (by
      rw [show (65535 : UInt16).toNat = 65535 by decide, varint_16]))
    (fun v => by rw [Has]; simp) (fun n => by simp only [wire, true_and])
  | .i32, _ => Sized.leaf (f := Val.i32) (Q := fun _ => True)
    (sized_int 32 (fun v : Int32 => zigzag v.toInt) 0 (-2147483648) (by decide) (by
      rw [show zigzag (-2147483648 : Int32).toInt = 4294967295 by decide, varint_32]))
    (fun v => by rw [Has]; simp) (fun n => by simp only [wire, true_and])
  | .u32, _ => Sized.leaf (f := Val.u32) (Q := fun _ => True)
    (sized_int 32 (fun v : UInt32 => v.toNat) 0 4294967295 (by decide) (by
      rw [show (4294967295 : UInt32).toNat = 4294967295 by decide, varint_32]))
    (fun v => by rw [Has]; simp) (fun n => by simp only [wire, true_and])
  | .i64, _ => Sized.leaf (f := Val.i64) (Q := fun _ => True)
    (sized_int 64 (fun v : Int64 => zigzag v.toInt) 0 (-9223372036854775808) (by decide) (by
      rw [show zigzag (-9223372036854775808 : Int64).toInt = 18446744073709551615 by decide,
        varint_64]))
    (fun v => by rw [Has]; simp) (fun n => by simp only [wire, true_and])
  | .u64, _ => Sized.leaf (f := Val.u64) (Q := fun _ => True)
    (sized_int 64 (fun v : UInt64 => v.toNat) 0 18446744073709551615 (by decide) (by
      rw [show (18446744073709551615 : UInt64).toNat = 18446744073709551615 by decide,
        varint_64]))
    (fun v => by rw [Has]; simp) (fun n => by simp only [wire, true_and])
  | .i128, hs => absurd hs (by simp [Supported])
  | .u128, hs => absurd hs (by simp [Supported])
  | .f32, _ => sized_const 4 (.f32 0) (by simp [Has]) fun v h => by
    rw [Has] at h; obtain ⟨x, rfl⟩ := h; simp [wire, leBytes]
  | .f64, _ => sized_const 8 (.f64 0) (by simp [Has]) fun v h => by
    rw [Has] at h; obtain ⟨x, rfl⟩ := h; simp [wire, leBytes]
  | .char, _ => sized_char
  | .string, _ => Sized.leaf (f := Val.str) (Q := fun s => (utf8 s).length < top t)
    (sized_block utf8 (fun n _ => string_of_length n) (Nat.two_pow_pos _))
    (fun v => by rw [Has]) (fun n => by simp only [wire])
  | .byteBuf, _ => Sized.leaf (f := Val.bytes) (Q := fun s => s.length < top t)
    (sized_block id (fun n _ => ⟨List.replicate n 0, by simp⟩) (Nat.two_pow_pos _))
    (fun v => by rw [Has]) (fun n => by simp only [wire, id_eq])
  | .str, hs => absurd hs (by simp [Supported])
  | .bytes, hs => absurd hs (by simp [Supported])
  | .any, hs => absurd hs (by simp [Supported])
  | .ignoredAny, hs => absurd hs (by simp [Supported])
  | .unit, _ => sized_const 0 .unit (by simp [Has]) fun v h => by
    rw [Has] at h; subst h; simp [wire]
  | .unitStruct n, _ => sized_const 0 (.unitStruct n) (by simp [Has]) fun v h => by
    rw [Has] at h; subst h; simp [wire]
  | .option ty, hs => by
    rw [Supported] at hs
    have ih := sized_ty (t := t) ty hs
    have h := (Sized.one (N := top t) (P := True) 1).union
      ((Sized.one (N := top t) (P := True) 1).add ih)
    simp only [minSize, maxSize]
    have e1 : min 1 (1 + minSize ty) = 1 := by omega
    have e2 : maxBound (some 1) (addBound (some 1) (maxSize t ty))
        = addBound (some 1) (maxSize t ty) := by
      cases maxSize t ty with
      | none => rfl
      | some m => simp only [addBound, maxBound]; congr 1; omega
    rw [e1, e2] at h
    refine h.congr (fun n => ?_) fun hp => ⟨trivial, trivial, by rw [Populated] at hp; exact hp⟩
    constructor
    · rintro ⟨v, hv, rfl⟩
      rw [Has] at hv
      rcases hv with rfl | ⟨w, rfl, hw⟩
      · exact .inl (by simp [wire])
      · exact .inr ⟨1, _, rfl, ⟨w, hw, rfl⟩, by rw [wire, List.length_cons]; omega⟩
    · rintro (rfl | ⟨x, y, rfl, ⟨w, hw, rfl⟩, rfl⟩)
      · exact ⟨.none, by simp [Has], by simp [wire]⟩
      · exact ⟨.some w, by rw [Has]; exact .inr ⟨w, rfl, hw⟩, by
          rw [wire, List.length_cons]; omega⟩
  | .newtypeStruct name ty, hs => by
    rw [Supported] at hs
    rw [minSize, maxSize]
    refine (sized_ty (t := t) ty hs).congr (fun n => ?_) fun hp => by rwa [Populated] at hp
    constructor
    · rintro ⟨v, hv, rfl⟩
      rw [Has] at hv
      obtain ⟨w, rfl, hw⟩ := hv
      exact ⟨w, hw, by rw [wire]⟩
    · rintro ⟨w, hw, rfl⟩
      exact ⟨.newtypeStruct name w, by rw [Has]; exact ⟨w, rfl, hw⟩, by rw [wire]⟩
  | .seq ty, hs => by
    rw [Supported] at hs
    simp only [minSize, maxSize]
    exact (sized_seq (sized_ty (t := t) ty hs)).congr (fun _ => .rfl)
      fun hp => by rwa [Populated] at hp
  | .tuple ts, hs => by
    rw [Supported] at hs
    rw [minSize, maxSize]
    refine (sized_all (t := t) ts hs).congr (fun n => ?_) fun hp => by rwa [Populated] at hp
    constructor
    · rintro ⟨v, hv, rfl⟩
      rw [Has] at hv
      obtain ⟨w, rfl, hw⟩ := hv
      exact ⟨w, hw, by rw [wire]⟩
    · rintro ⟨w, hw, rfl⟩
      exact ⟨.tuple w, by rw [Has]; exact ⟨w, rfl, hw⟩, by rw [wire]⟩
  | .tupleStruct name ts, hs => by
    rw [Supported] at hs
    rw [minSize, maxSize]
    refine (sized_all (t := t) ts hs).congr (fun n => ?_) fun hp => by rwa [Populated] at hp
    constructor
    · rintro ⟨v, hv, rfl⟩
      rw [Has] at hv
      obtain ⟨w, rfl, hw⟩ := hv
      exact ⟨w, hw, by rw [wire]⟩
    · rintro ⟨w, hw, rfl⟩
      exact ⟨.tupleStruct name w, by rw [Has]; exact ⟨w, rfl, hw⟩, by rw [wire]⟩
  | .map kt vt, hs => by
    rw [Supported] at hs
    simp only [minSize, maxSize]
    obtain ⟨rfl, hs⟩ := hs
    exact (sized_map (sized_ty (t := t) vt hs)).congr (fun _ => .rfl)
      fun hp => by rw [Populated] at hp; exact hp.2
  | .struct name fs, hs => by
    rw [Supported] at hs
    rw [minSize, maxSize]
    refine (sized_fields (t := t) fs hs).congr (fun n => ?_) fun hp => by rwa [Populated] at hp
    constructor
    · rintro ⟨v, hv, rfl⟩
      rw [Has] at hv
      obtain ⟨w, rfl, hw⟩ := hv
      exact ⟨w, hw, by rw [wire]⟩
    · rintro ⟨w, hw, rfl⟩
      exact ⟨.struct name w, by rw [Has]; exact ⟨w, rfl, hw⟩, by rw [wire]⟩
  | .enum name vs, hs => by
    rw [Supported] at hs
    rw [minSize, maxSize]
    refine (sized_variants (t := t) name 0 vs hs.2 (by have := hs.1; omega)).congr (fun n => ?_)
      fun hp => by rwa [Populated] at hp
    simp only [Lens, Has]
theorem sized_all {t : Target} : (ts : List Ty) → AllSupported ts →
    Sized (top t) (fun n => ∃ vs, HasAll t ts vs ∧ (wireAll vs).length = n) (AllPopulated ts)
      (minSizeAll ts) (maxSizeAll t ts)
  | [], _ => by
    rw [minSizeAll, maxSizeAll]
    refine (Sized.one (P := True) 0).congr (fun n => ?_) fun _ => trivial
    simp only [HasAll]
    constructor
    · rintro ⟨v, rfl, rfl⟩; rfl
    · rintro rfl; exact ⟨[], rfl, rfl⟩
  | ty :: ts, hs => by
    rw [AllSupported] at hs
    rw [minSizeAll, maxSizeAll]
    refine ((sized_ty (t := t) ty hs.1).add (sized_all ts hs.2)).congr (fun n => ?_)
      fun hp => by rwa [AllPopulated] at hp
    simp only [HasAll]
    constructor
    · rintro ⟨v, ⟨w, ws, rfl, h1, h2⟩, rfl⟩
      exact ⟨_, _, ⟨w, h1, rfl⟩, ⟨ws, h2, rfl⟩, by rw [wireAll, List.length_append]⟩
    · rintro ⟨x, y, ⟨w, h1, rfl⟩, ⟨ws, h2, rfl⟩, rfl⟩
      exact ⟨w :: ws, ⟨w, ws, rfl, h1, h2⟩, by rw [wireAll, List.length_append]⟩
theorem sized_fields {t : Target} : (fs : List (String × Ty)) → FieldsSupported fs →
    Sized (top t) (fun n => ∃ vs, HasFields t fs vs ∧ (wireFields vs).length = n)
      (FieldsPopulated fs) (minSizeFields fs) (maxSizeFields t fs)
  | [], _ => by
    rw [minSizeFields, maxSizeFields]
    refine (Sized.one (P := True) 0).congr (fun n => ?_) fun _ => trivial
    simp only [HasFields]
    constructor
    · rintro ⟨v, rfl, rfl⟩; rfl
    · rintro rfl; exact ⟨[], rfl, rfl⟩
  | (fn, ty) :: fs, hs => by
    rw [FieldsSupported] at hs
    rw [minSizeFields, maxSizeFields]
    refine ((sized_ty (t := t) ty hs.1).add (sized_fields fs hs.2)).congr (fun n => ?_)
      fun hp => by rwa [FieldsPopulated] at hp
    simp only [HasFields]
    constructor
    · rintro ⟨v, ⟨w, ws, rfl, h1, h2⟩, rfl⟩
      exact ⟨_, _, ⟨w, h1, rfl⟩, ⟨ws, h2, rfl⟩, by rw [wireFields, List.length_append]⟩
    · rintro ⟨x, y, ⟨w, h1, rfl⟩, ⟨ws, h2, rfl⟩, rfl⟩
      exact ⟨(fn, w) :: ws, ⟨w, ws, rfl, h1, h2⟩, by rw [wireFields, List.length_append]⟩
theorem sized_variants {t : Target} (name : String) : (k : Nat) → (vs : List (String × VTy)) →
    VariantsSupported vs → k + vs.length ≤ 2 ^ 32 →
    Sized (top t) (fun n => ∃ v, HasVariant t name k vs v ∧ (wire v).length = n)
      (vs ≠ [] ∧ VariantsPopulated vs) (minSizeVariants k vs) (maxSizeVariants t k vs)
  | k, [], _, _ => {
      ge := fun n h => by obtain ⟨v, h, -⟩ := h; exact absurd h (by simp [HasVariant])
      le := fun n h => by obtain ⟨v, h, -⟩ := h; exact absurd h (by simp [HasVariant])
      lo_mem := fun h => absurd rfl h.1
      hi_mem := fun h => absurd rfl h.1
      unbounded := fun h => absurd rfl h.1 }
  | k, [(vn, vt)], hs, hk => by
    rw [VariantsSupported] at hs
    rw [minSizeVariants, maxSizeVariants, maxSizeVariants]
    have h := sized_payload (t := t) name k vn vt hs.1 (by simp at hk; omega)
    have e : maxBound (addBound (some (varint 32 k).length) (maxSizePayload t vt)) (some 0)
        = addBound (some (varint 32 k).length) (maxSizePayload t vt) := by
      cases maxSizePayload t vt with
      | none => rfl
      | some m => simp only [addBound, maxBound]; congr 1; omega
    rw [e]
    refine h.congr (fun n => ?_) fun hp => by
      have := hp.2; rw [VariantsPopulated] at this; exact this.1
    simp only [HasVariant, or_false]
  | k, (vn, vt) :: v2 :: vs, hs, hk => by
    have hs' := hs
    rw [VariantsSupported] at hs
    rw [minSizeVariants, maxSizeVariants]
    have h := sized_payload (t := t) name k vn vt hs.1 (by simp at hk; omega)
    have h2 := sized_variants (t := t) name (k + 1) (v2 :: vs) hs.2 (by simp at hk ⊢; omega)
    refine (h.union h2).congr (fun n => ?_) fun hp => by
      have := hp.2
      rw [VariantsPopulated] at this
      exact ⟨this.1, by simp, this.2⟩
    rw [show HasVariant t name k ((vn, vt) :: v2 :: vs) = fun v =>
      HasPayload t name (UInt32.ofNat k) vn vt v ∨ HasVariant t name (k + 1) (v2 :: vs) v from by
        funext v; rw [HasVariant]]
    constructor
    · rintro ⟨v, h | h, hn⟩
      · exact .inl ⟨v, h, hn⟩
      · exact .inr ⟨v, h, hn⟩
    · rintro (⟨v, h, hn⟩ | ⟨v, h, hn⟩)
      · exact ⟨v, .inl h, hn⟩
      · exact ⟨v, .inr h, hn⟩
theorem sized_payload {t : Target} (name : String) (k : Nat) (vn : String) : (vt : VTy) →
    PayloadSupported vt → k < 2 ^ 32 →
    Sized (top t) (fun n => ∃ v, HasPayload t name (UInt32.ofNat k) vn vt v ∧ (wire v).length = n)
      (PayloadPopulated vt) ((varint 32 k).length + minSizePayload vt)
      (addBound (some (varint 32 k).length) (maxSizePayload t vt))
  | .unit, _, hk => by
    rw [minSizePayload, maxSizePayload]
    refine (Sized.one (P := True) (varint 32 k).length).congr (fun n => ?_) fun _ => trivial
    simp only [HasPayload]
    constructor
    · rintro ⟨v, rfl, rfl⟩; rw [wire, ofNat_toNat hk]
    · rintro rfl; exact ⟨_, rfl, by rw [wire, ofNat_toNat hk]⟩
  | .newtype ty, hs, hk => by
    rw [PayloadSupported] at hs
    rw [minSizePayload, maxSizePayload]
    refine ((Sized.one (P := True) (varint 32 k).length).add (sized_ty (t := t) ty hs)).congr
      (fun n => ?_) fun hp => ⟨trivial, by rwa [PayloadPopulated] at hp⟩
    simp only [HasPayload]
    constructor
    · rintro ⟨v, ⟨w, rfl, hw⟩, rfl⟩
      exact ⟨_, _, rfl, ⟨w, hw, rfl⟩, by rw [wire, ofNat_toNat hk, List.length_append]⟩
    · rintro ⟨x, y, rfl, ⟨w, hw, rfl⟩, rfl⟩
      exact ⟨_, ⟨w, rfl, hw⟩, by rw [wire, ofNat_toNat hk, List.length_append]⟩
  | .tuple ts, hs, hk => by
    rw [PayloadSupported] at hs
    rw [minSizePayload, maxSizePayload]
    refine ((Sized.one (P := True) (varint 32 k).length).add (sized_all (t := t) ts hs)).congr
      (fun n => ?_) fun hp => ⟨trivial, by rwa [PayloadPopulated] at hp⟩
    simp only [HasPayload]
    constructor
    · rintro ⟨v, ⟨w, rfl, hw⟩, rfl⟩
      exact ⟨_, _, rfl, ⟨w, hw, rfl⟩, by rw [wire, ofNat_toNat hk, List.length_append]⟩
    · rintro ⟨x, y, rfl, ⟨w, hw, rfl⟩, rfl⟩
      exact ⟨_, ⟨w, rfl, hw⟩, by rw [wire, ofNat_toNat hk, List.length_append]⟩
  | .struct fs, hs, hk => by
    rw [PayloadSupported] at hs
    rw [minSizePayload, maxSizePayload]
    refine ((Sized.one (P := True) (varint 32 k).length).add (sized_fields (t := t) fs hs)).congr
      (fun n => ?_) fun hp => ⟨trivial, by rwa [PayloadPopulated] at hp⟩
    simp only [HasPayload]
    constructor
    · rintro ⟨v, ⟨w, rfl, hw⟩, rfl⟩
      exact ⟨_, _, rfl, ⟨w, hw, rfl⟩, by rw [wire, ofNat_toNat hk, List.length_append]⟩
    · rintro ⟨x, y, rfl, ⟨w, hw, rfl⟩, rfl⟩
      exact ⟨_, ⟨w, rfl, hw⟩, by rw [wire, ofNat_toNat hk, List.length_append]⟩
end

/-! ## Bodies -/

/-- A body that can be written. -/
structure Fine (t : Target) (mode : BuildMode) (b : Body) : Prop where
  exist : Exists t b
  dates : DatesFit mode b

theorem Fine.mono {t : Target} {mode : BuildMode} {b c : Body} (hb : Fine t mode b)
    (h : ∀ x ∈ parts c, x ∈ parts b) : Fine t mode c :=
  ⟨fun x hx => hb.exist x (h x hx), fun e d hd => hb.dates e d (h _ hd)⟩

theorem Fine.of_parts {t : Target} {mode : BuildMode} {b : Body}
    (h : ∀ c ∈ parts b, c = b ∨ ∃ d, c ∈ parts d ∧ Fine t mode d)
    (h1 : LengthsFit t b) (h2 : ∀ es, b = .map es → Ascending es)
    (h3 : ∀ d, b = .date d → mode = .debug → DateFits d) : Fine t mode b where
  exist x hx := by
    rcases h x hx with rfl | ⟨d, hd, hg⟩
    · exact ⟨h1, h2⟩
    · exact hg.exist x hd
  dates e d hd := by
    rcases h _ hd with he | ⟨d', hd', hg⟩
    · exact h3 d he.symm e
    · exact hg.dates e d hd'

theorem Fine.leaf {t : Target} {mode : BuildMode} {b : Body} (hp : parts b = [b])
    (h1 : LengthsFit t b) (h2 : ∀ es, b = .map es → Ascending es)
    (h3 : ∀ d, b = .date d → mode = .debug → DateFits d) : Fine t mode b :=
  .of_parts (fun c hc => by rw [hp] at hc; exact .inl (List.mem_singleton.mp hc)) h1 h2 h3

theorem Fine.some {t : Target} {mode : BuildMode} {b : Body} (h : Fine t mode b) :
    Fine t mode (.some b) :=
  .of_parts (fun c hc => by
    rw [parts] at hc
    rcases List.mem_cons.mp hc with rfl | hc
    · exact .inl rfl
    · exact .inr ⟨b, hc, h⟩) (by simp [LengthsFit]) nofun nofun

theorem Fine.enum {t : Target} {mode : BuildMode} {b : Body} (i : UInt32) (h : Fine t mode b) :
    Fine t mode (.enum i b) :=
  .of_parts (fun c hc => by
    rw [parts] at hc
    rcases List.mem_cons.mp hc with rfl | hc
    · exact .inl rfl
    · exact .inr ⟨b, hc, h⟩) (by simp [LengthsFit]) nofun nofun

theorem Fine.tuple {t : Target} {mode : BuildMode} {bs : List Body}
    (h : ∀ b ∈ bs, Fine t mode b) : Fine t mode (.tuple bs) :=
  .of_parts (fun c hc => by
    rw [parts] at hc
    rcases List.mem_cons.mp hc with rfl | hc
    · exact .inl rfl
    · obtain ⟨b, hb, hc⟩ := Body.mem_partsAll.mp hc
      exact .inr ⟨b, hc, h b hb⟩) (by simp [LengthsFit]) nofun nofun

theorem Fine.array {t : Target} {mode : BuildMode} {bs : List Body} (hl : bs.length < top t)
    (h : ∀ b ∈ bs, Fine t mode b) : Fine t mode (.array bs) :=
  .of_parts (fun c hc => by
    rw [parts] at hc
    rcases List.mem_cons.mp hc with rfl | hc
    · exact .inl rfl
    · obtain ⟨b, hb, hc⟩ := Body.mem_partsAll.mp hc
      exact .inr ⟨b, hc, h b hb⟩) hl nofun nofun

theorem Fine.of_array {t : Target} {mode : BuildMode} {bs : List Body}
    (h : Fine t mode (.array bs)) : ∀ b ∈ bs, Fine t mode b := fun b hb =>
  h.mono fun x hx => by
    rw [parts]; exact List.mem_cons_of_mem _ (Body.mem_partsAll.mpr ⟨b, hb, hx⟩)

theorem Fine.of_tuple {t : Target} {mode : BuildMode} {bs : List Body}
    (h : Fine t mode (.tuple bs)) : ∀ b ∈ bs, Fine t mode b := fun b hb =>
  h.mono fun x hx => by
    rw [parts]; exact List.mem_cons_of_mem _ (Body.mem_partsAll.mpr ⟨b, hb, hx⟩)

theorem Fine.map_one {t : Target} {mode : BuildMode} {s : String} {b : Body}
    (hs : (utf8 s).length < top t) (h : Fine t mode b) : Fine t mode (.map [(s, b)]) :=
  .of_parts (fun c hc => by
    rw [parts] at hc
    rcases List.mem_cons.mp hc with rfl | hc
    · exact .inl rfl
    · obtain ⟨e, he, hc⟩ := Body.mem_partsEntries.mp hc
      rw [List.mem_singleton.mp he] at hc
      exact .inr ⟨b, hc, h⟩)
    ⟨one_lt t, fun e he => by rw [List.mem_singleton.mp he]; exact hs⟩
    (fun es he => by cases he; exact List.pairwise_singleton _ _) nofun

/-- The lengths of the bodies of a header. -/
def BodyLens (t : Target) (mode : BuildMode) (h : Header) (n : Nat) : Prop :=
  ∃ b, Conforms h b ∧ Fine t mode b ∧ (bodyWire b).length = n

theorem replicate_bodies {n : Nat} {b : Body} :
    (bodiesWire (List.replicate n b)).length = n * (bodyWire b).length := by
  induction n with
  | zero => simp [bodiesWire]
  | succ n ih => rw [List.replicate_succ, bodiesWire, List.length_append, ih, Nat.succ_mul]; omega

theorem bodiesWire_zero {bs : List Body} (h : ∀ b ∈ bs, (bodyWire b).length = 0) :
    (bodiesWire bs).length = 0 := by
  induction bs with
  | nil => rfl
  | cons b bs ih =>
    rw [bodiesWire, List.length_append, h b List.mem_cons_self,
      ih fun w hw => h w (List.mem_cons_of_mem _ hw)]

/-- Headers without parts, by their bodies. -/
theorem Sized.leafBody {t : Target} {mode : BuildMode} {h : Header} {α : Type} {f : α → Body}
    {Q : α → Prop} {P : Prop} {S : Nat → Prop} {lo : Nat} {hi : Option Nat}
    (hS : Sized (top t) S True lo hi) (hv : ∀ b, Conforms h b ↔ ∃ x, b = f x)
    (hQ : ∀ x, Fine t mode (f x) ↔ Q x)
    (hn : ∀ n, S n ↔ ∃ x, Q x ∧ (bodyWire (f x)).length = n) :
    Sized (top t) (BodyLens t mode h) P lo hi :=
  hS.congr (fun n => by
    rw [hn]
    constructor
    · rintro ⟨b, hc, hf, hw⟩
      obtain ⟨x, rfl⟩ := (hv b).mp hc
      exact ⟨x, (hQ x).mp hf, hw⟩
    · rintro ⟨x, hq, hw⟩
      exact ⟨f x, (hv _).mpr ⟨x, rfl⟩, (hQ x).mpr hq, hw⟩) fun _ => trivial

theorem sizedBody_const {t : Target} {mode : BuildMode} {h : Header} {P : Prop} (n : Nat)
    (b0 : Body) (hc : Conforms h b0) (h0 : Fine t mode b0)
    (hw : ∀ b, Conforms h b → (bodyWire b).length = n) :
    Sized (top t) (BodyLens t mode h) P n (some n) :=
  (Sized.one (P := True) n).congr (fun k => by
    constructor
    · rintro ⟨b, hb, -, rfl⟩; exact hw b hb
    · rintro rfl; exact ⟨b0, hc, h0, hw b0 hc⟩) fun _ => trivial

theorem fine_iff {t : Target} {mode : BuildMode} {α : Type} {f : α → Body}
    (hp : ∀ x, parts (f x) = [f x]) (h2 : ∀ x es, f x ≠ .map es) (h3 : ∀ x d, f x ≠ .date d)
    (x : α) : Fine t mode (f x) ↔ LengthsFit t (f x) :=
  ⟨fun h => (h.exist _ (Body.self_mem_parts _)).1, fun h =>
    .leaf (hp x) h (fun es he => absurd he (h2 x es)) fun d hd => absurd hd (h3 x d)⟩

theorem sizedBody_array {t : Target} {mode : BuildMode} {h : Header} {P : Prop} {lo : Nat}
    {hi : Option Nat} (hS : Sized (top t) (BodyLens t mode h) P lo hi) :
    Sized (top t) (BodyLens t mode (.array h)) P 1
      (if hi = some 0 then some (maxCount t) else none) where
  ge n hn := by
    obtain ⟨b, hc, -, rfl⟩ := hn
    cases hc with
    | array _ bs hc =>
      have := varint_pos 64 bs.length
      rw [bodyWire, List.length_append]; omega
  le n hn m hm := by
    obtain ⟨b, hc, hf, rfl⟩ := hn
    cases hc with
    | array _ bs hc =>
      by_cases h0 : hi = some 0
      · rw [if_pos h0] at hm
        cases hm
        rw [bodyWire, List.length_append, bodiesWire_zero]
        · exact count_le (hf.exist _ (Body.self_mem_parts _)).1
        · intro b hb
          have := hS.le _ ⟨b, hc b hb, hf.of_array b hb, rfl⟩ 0 h0
          omega
      · rw [if_neg h0] at hm; cases hm
  lo_mem _ := ⟨.array [], .array h [] (by simp), .array (Nat.two_pow_pos _) (by simp), by
    simp [bodyWire, bodiesWire, varint_zero]⟩
  hi_mem p m hm := by
    by_cases h0 : hi = some 0
    · rw [if_pos h0] at hm
      cases hm
      obtain ⟨b, hc, hf, hw⟩ := hS.hi_mem p 0 h0
      refine ⟨.array (List.replicate (top t - 1) b), .array h _ ?_, .array ?_ ?_, ?_⟩
      · intro c hc'; rw [List.eq_of_mem_replicate hc']; exact hc
      · have : 1 < top t := one_lt t
        rw [List.length_replicate]; omega
      · intro c hc'; rw [List.eq_of_mem_replicate hc']; exact hf
      · rw [bodyWire, List.length_append, replicate_bodies, hw, List.length_replicate, count_max]
        omega
    · rw [if_neg h0] at hm; cases hm
  unbounded p hb k hk := by
    cases hi with
    | none =>
      obtain ⟨n, hn, b, hc, hf, hw⟩ := hS.unbounded p rfl k hk
      refine ⟨_, ?_, .array [b], .array h _ ?_, .array (one_lt t) ?_, rfl⟩
      · simp only [bodyWire, bodiesWire, List.length_append]; omega
      · intro c hc'; rw [List.mem_singleton.mp hc']; exact hc
      · intro c hc'; rw [List.mem_singleton.mp hc']; exact hf
    | some m =>
      have h0 : m ≠ 0 := by
        intro h0
        subst h0
        rw [if_pos rfl] at hb
        cases hb
      obtain ⟨b, hc, hf, hw⟩ := hS.hi_mem p m rfl
      refine ⟨_, ?_, .array (List.replicate k b), .array h _ ?_, .array ?_ ?_, rfl⟩
      · rw [bodyWire, List.length_append, replicate_bodies, hw]
        have := Nat.le_mul_of_pos_right k (Nat.pos_of_ne_zero h0)
        omega
      · intro c hc'; rw [List.eq_of_mem_replicate hc']; exact hc
      · rw [List.length_replicate]; exact hk
      · intro c hc'; rw [List.eq_of_mem_replicate hc']; exact hf

theorem sizedBody_map {t : Target} {mode : BuildMode} {h : Header} {P : Prop} {lo : Nat}
    {hi : Option Nat} (hS : Sized (top t) (BodyLens t mode h) P lo hi) :
    Sized (top t) (BodyLens t mode (.map h)) P 1 none where
  ge n hn := by
    obtain ⟨b, hc, -, rfl⟩ := hn
    cases hc with
    | map _ es hc =>
      have := varint_pos 64 es.length
      rw [bodyWire, List.length_append]; omega
  le n hn m hm := by cases hm
  lo_mem _ := ⟨.map [], .map h [] (by simp), .leaf (by simp [parts, partsEntries])
    ⟨Nat.two_pow_pos _, by simp⟩ (fun es he => by cases he; exact List.Pairwise.nil) nofun, by
    simp [bodyWire, entriesWire, varint_zero]⟩
  hi_mem _ m hm := by cases hm
  unbounded p _ k hk := by
    obtain ⟨b, hc, hf, -⟩ := hS.lo_mem p
    obtain ⟨s, hs⟩ := string_of_length k
    refine ⟨_, ?_, .map [(s, b)], .map h _ ?_, .map_one (by omega) hf, rfl⟩
    · have := block_length (utf8 s)
      simp only [bodyWire, entriesWire, List.length_append]; omega
    · intro e he; rw [List.mem_singleton.mp he]; exact hc

theorem sizedBody_date {t : Target} {mode : BuildMode} {P : Prop} :
    Sized (top t) (BodyLens t mode .date) P 2 (some 8) where
  ge n h := by
    obtain ⟨b, hc, -, rfl⟩ := h
    cases hc with
    | date d =>
      have := varint_pos 32 (zigzag (d.year - 2000).toInt)
      have := varint_pos 16 (d.ordinal - 1).toNat
      rw [bodyWire, dateWire, List.length_append]; omega
  le n h m hm := by
    obtain ⟨b, hc, -, rfl⟩ := h
    cases hm
    cases hc with
    | date d =>
      have := varint_le 32 (zigzag (d.year - 2000).toInt)
      have := varint_le 16 (d.ordinal - 1).toNat
      rw [bodyWire, dateWire, List.length_append]; omega
  lo_mem _ := by
    refine ⟨.date ⟨2000, 1⟩, .date _, .leaf (by simp [parts]) (by simp [LengthsFit]) nofun ?_, ?_⟩
    · intro d hd _
      cases hd
      exact ⟨by decide, by decide⟩
    · rw [bodyWire, dateWire]
      simp [zigzag, varint_zero]
  hi_mem _ m hm := by
    cases hm
    refine ⟨.date ⟨-2147481648, 65535⟩, .date _, .leaf (by simp [parts]) (by simp [LengthsFit])
      nofun ?_, ?_⟩
    · intro d hd _
      cases hd
      exact ⟨by decide, by decide⟩
    · rw [bodyWire, dateWire, List.length_append,
        show zigzag ((-2147481648 : Int32) - 2000).toInt = 4294967295 by decide, varint_32]
      rw [show ((65535 : UInt16) - 1).toNat = 65534 by decide]
      simp [length_varint, varintLen, groups]
  unbounded _ h := by cases h

theorem sizedBody_dateTime {t : Target} {mode : BuildMode} {P : Prop} :
    Sized (top t) (BodyLens t mode .dateTime) P 2 (some 14) where
  ge n h := by
    obtain ⟨b, hc, -, rfl⟩ := h
    cases hc with
    | dateTime d =>
      have := varint_pos 64 (zigzag d.unixTimestamp.toInt)
      have := varint_pos 32 d.nanosecond.toNat
      rw [bodyWire, dateTimeWire, List.length_append]; omega
  le n h m hm := by
    obtain ⟨b, hc, -, rfl⟩ := h
    cases hm
    cases hc with
    | dateTime d =>
      have := varint_le 64 (zigzag d.unixTimestamp.toInt)
      have := varint_le 32 d.nanosecond.toNat
      rw [bodyWire, dateTimeWire, List.length_append]; omega
  lo_mem _ := by
    refine ⟨.dateTime ⟨0, 0⟩, .dateTime _, .leaf (by simp [parts]) (by simp [LengthsFit]) nofun
      nofun, ?_⟩
    rw [bodyWire, dateTimeWire]
    simp [zigzag, varint_zero]
  hi_mem _ m hm := by
    cases hm
    refine ⟨.dateTime ⟨-9223372036854775808, 4294967295⟩, .dateTime _, .leaf (by simp [parts])
      (by simp [LengthsFit]) nofun nofun, ?_⟩
    rw [bodyWire, dateTimeWire, List.length_append,
      show zigzag (-9223372036854775808 : Int64).toInt = 18446744073709551615 by decide, varint_64,
      show (4294967295 : UInt32).toNat = 4294967295 by decide, varint_32]
  unbounded _ h := by cases h

theorem sizedBody_decimal {t : Target} {mode : BuildMode} {P : Prop} :
    Sized (top t) (BodyLens t mode .bigDecimal) P 1 none where
  ge n h := by
    obtain ⟨b, hc, -, rfl⟩ := h
    cases hc with
    | bigDecimal v =>
      rw [bodyWire, decimalWire]
      split
      · simp
      · have := block_length v.signedBytes
        rw [List.length_append]; omega
  le n h m hm := by cases hm
  lo_mem _ := ⟨.bigDecimal ⟨[], 0⟩, .bigDecimal _, .leaf (by simp [parts])
    (Nat.two_pow_pos _) nofun nofun, by rw [bodyWire, decimalWire]; simp⟩
  hi_mem _ m hm := by cases hm
  unbounded _ _ k hk := by
    refine ⟨_, ?_, .bigDecimal ⟨List.replicate k 0, 0⟩, .bigDecimal _, .leaf (by simp [parts])
      (by simp only [LengthsFit, List.length_replicate]; exact hk) nofun nofun, rfl⟩
    rw [bodyWire, decimalWire]
    cases k with
    | zero => omega
    | succ k =>
      rw [if_neg (by simp [List.replicate_succ])]
      have := block_length (List.replicate (k + 1) (0 : UInt8))
      rw [List.length_replicate] at this
      rw [List.length_append]
      exact Nat.le_trans (Nat.le_of_succ_le this) (Nat.le_add_right _ _)

theorem populated_mono {h h' : Header} (hp : PopulatedHeader h)
    (hm : ∀ x ∈ headerParts h', x ∈ headerParts h) : PopulatedHeader h' :=
  fun hs hh => hp hs (hm _ hh)

mutual
theorem sized_body {t : Target} {mode : BuildMode} : (h : Header) →
    Sized (top t) (BodyLens t mode h) (PopulatedHeader h) (minBody h) (maxBody t h)
  | .unit => sizedBody_const 0 .unit .unit (.leaf rfl (by simp [LengthsFit]) nofun nofun)
      fun b h => by cases h; rfl
  | .optional h => by
    have ih := sized_body (t := t) (mode := mode) h
    have hS := (Sized.one (N := top t) (P := True) 1).union
      ((Sized.one (N := top t) (P := True) 1).add ih)
    simp only [minBody, maxBody]
    have e1 : min 1 (1 + minBody h) = 1 := by omega
    have e2 : maxBound (some 1) (addBound (some 1) (maxBody t h))
        = addBound (some 1) (maxBody t h) := by
      cases maxBody t h with
      | none => rfl
      | some m => simp only [addBound, maxBound]; congr 1; omega
    rw [e1, e2] at hS
    refine hS.congr (fun n => ?_) fun hp => ⟨trivial, trivial, populated_mono hp fun x hx => by
      rw [headerParts]; exact List.mem_cons_of_mem _ hx⟩
    constructor
    · rintro ⟨b, hc, hf, rfl⟩
      cases hc with
      | none => exact .inl (by simp [bodyWire])
      | some _ c hc =>
        exact .inr ⟨1, _, rfl, ⟨c, hc, hf.mono fun x hx => by
          rw [parts]; exact List.mem_cons_of_mem _ hx, rfl⟩, by
          rw [bodyWire, List.length_cons]; omega⟩
    · rintro (rfl | ⟨x, y, rfl, ⟨c, hc, hf, rfl⟩, rfl⟩)
      · exact ⟨.none, .none h, .leaf rfl (by simp [LengthsFit]) nofun nofun, by simp [bodyWire]⟩
      · exact ⟨.some c, .some h c hc, hf.some, by rw [bodyWire, List.length_cons]; omega⟩
  | .boolean => sizedBody_const 1 (.boolean true) (.boolean _)
      (.leaf rfl (by simp [LengthsFit]) nofun nofun) fun b h => by cases h; simp [bodyWire]
  | .uint8 => sizedBody_const 1 (.uint8 0) (.uint8 _)
      (.leaf rfl (by simp [LengthsFit]) nofun nofun) fun b h => by cases h; simp [bodyWire]
  | .int8 => sizedBody_const 1 (.int8 0) (.int8 _)
      (.leaf rfl (by simp [LengthsFit]) nofun nofun) fun b h => by cases h; simp [bodyWire]
  | .uint16 => Sized.leafBody (f := Body.uint16) (Q := fun _ => True)
    (sized_int 16 (fun v : UInt16 => v.toNat) 0 65535 (by decide) (by
      rw [show (65535 : UInt16).toNat = 65535 by decide, varint_16]))
    (fun b => ⟨fun h => by cases h; exact ⟨_, rfl⟩, fun ⟨x, e⟩ => e ▸ .uint16 x⟩)
    (fun x => by rw [fine_iff (fun _ => rfl) nofun nofun]; simp [LengthsFit])
    (fun n => by simp only [bodyWire, true_and])
  | .int16 => Sized.leafBody (f := Body.int16) (Q := fun _ => True)
    (sized_int 16 (fun v : Int16 => zigzag v.toInt) 0 (-32768) (by decide) (by
      rw [show zigzag (-32768 : Int16).toInt = 65535 by decide, varint_16]))
    (fun b => ⟨fun h => by cases h; exact ⟨_, rfl⟩, fun ⟨x, e⟩ => e ▸ .int16 x⟩)
    (fun x => by rw [fine_iff (fun _ => rfl) nofun nofun]; simp [LengthsFit])
    (fun n => by simp only [bodyWire, true_and])
  | .uint32 => Sized.leafBody (f := Body.uint32) (Q := fun _ => True)
    (sized_int 32 (fun v : UInt32 => v.toNat) 0 4294967295 (by decide) (by
      rw [show (4294967295 : UInt32).toNat = 4294967295 by decide, varint_32]))
    (fun b => ⟨fun h => by cases h; exact ⟨_, rfl⟩, fun ⟨x, e⟩ => e ▸ .uint32 x⟩)
    (fun x => by rw [fine_iff (fun _ => rfl) nofun nofun]; simp [LengthsFit])
    (fun n => by simp only [bodyWire, true_and])
  | .int32 => Sized.leafBody (f := Body.int32) (Q := fun _ => True)
    (sized_int 32 (fun v : Int32 => zigzag v.toInt) 0 (-2147483648) (by decide) (by
      rw [show zigzag (-2147483648 : Int32).toInt = 4294967295 by decide, varint_32]))
    (fun b => ⟨fun h => by cases h; exact ⟨_, rfl⟩, fun ⟨x, e⟩ => e ▸ .int32 x⟩)
    (fun x => by rw [fine_iff (fun _ => rfl) nofun nofun]; simp [LengthsFit])
    (fun n => by simp only [bodyWire, true_and])
  | .uint64 => Sized.leafBody (f := Body.uint64) (Q := fun _ => True)
    (sized_int 64 (fun v : UInt64 => v.toNat) 0 18446744073709551615 (by decide) (by
      rw [show (18446744073709551615 : UInt64).toNat = 18446744073709551615 by decide,
        varint_64]))
    (fun b => ⟨fun h => by cases h; exact ⟨_, rfl⟩, fun ⟨x, e⟩ => e ▸ .uint64 x⟩)
    (fun x => by rw [fine_iff (fun _ => rfl) nofun nofun]; simp [LengthsFit])
    (fun n => by simp only [bodyWire, true_and])
  | .int64 => Sized.leafBody (f := Body.int64) (Q := fun _ => True)
    (sized_int 64 (fun v : Int64 => zigzag v.toInt) 0 (-9223372036854775808) (by decide) (by
      rw [show zigzag (-9223372036854775808 : Int64).toInt = 18446744073709551615 by decide,
        varint_64]))
    (fun b => ⟨fun h => by cases h; exact ⟨_, rfl⟩, fun ⟨x, e⟩ => e ▸ .int64 x⟩)
    (fun x => by rw [fine_iff (fun _ => rfl) nofun nofun]; simp [LengthsFit])
    (fun n => by simp only [bodyWire, true_and])
  | .float32 => sizedBody_const 4 (.float32 0) (.float32 _)
      (.leaf rfl (by simp [LengthsFit]) nofun nofun) fun b h => by
        cases h; simp [bodyWire, leBytes]
  | .float64 => sizedBody_const 8 (.float64 0) (.float64 _)
      (.leaf rfl (by simp [LengthsFit]) nofun nofun) fun b h => by
        cases h; simp [bodyWire, leBytes]
  | .bigUInt => Sized.leafBody (f := Body.bigUInt) (Q := fun v => v.bytes.length < top t)
    (sized_block (fun v : BigUint => v.bytes) (fun n _ => ⟨⟨List.replicate n 0⟩, by simp⟩)
      (Nat.two_pow_pos _))
    (fun b => ⟨fun h => by cases h; exact ⟨_, rfl⟩, fun ⟨x, e⟩ => e ▸ .bigUInt x⟩)
    (fun x => by rw [fine_iff (fun _ => rfl) nofun nofun, LengthsFit])
    (fun n => by simp only [bodyWire])
  | .bigInt => Sized.leafBody (f := Body.bigInt) (Q := fun v => v.bytes.length < top t)
    (sized_block (fun v : BigInt => v.bytes) (fun n _ => ⟨⟨List.replicate n 0⟩, by simp⟩)
      (Nat.two_pow_pos _))
    (fun b => ⟨fun h => by cases h; exact ⟨_, rfl⟩, fun ⟨x, e⟩ => e ▸ .bigInt x⟩)
    (fun x => by rw [fine_iff (fun _ => rfl) nofun nofun, LengthsFit])
    (fun n => by simp only [bodyWire])
  | .bigDecimal => sizedBody_decimal
  | .string => Sized.leafBody (f := Body.string) (Q := fun s => (utf8 s).length < top t)
    (sized_block utf8 (fun n _ => string_of_length n) (Nat.two_pow_pos _))
    (fun b => ⟨fun h => by cases h; exact ⟨_, rfl⟩, fun ⟨x, e⟩ => e ▸ .string x⟩)
    (fun x => by rw [fine_iff (fun _ => rfl) nofun nofun, LengthsFit])
    (fun n => by simp only [bodyWire])
  | .binary => Sized.leafBody (f := Body.binary) (Q := fun s => s.length < top t)
    (sized_block id (fun n _ => ⟨List.replicate n 0, by simp⟩) (Nat.two_pow_pos _))
    (fun b => ⟨fun h => by cases h; exact ⟨_, rfl⟩, fun ⟨x, e⟩ => e ▸ .binary x⟩)
    (fun x => by rw [fine_iff (fun _ => rfl) nofun nofun, LengthsFit])
    (fun n => by simp only [bodyWire, id_eq])
  | .array h => by
    simp only [minBody, maxBody]
    exact (sizedBody_array (sized_body (t := t) (mode := mode) h)).congr (fun _ => .rfl)
      fun hp => populated_mono hp fun x hx => by
        rw [headerParts]; exact List.mem_cons_of_mem _ hx
  | .tuple hs => by
    rw [minBody, maxBody]
    refine (sized_bodies (t := t) (mode := mode) hs).congr (fun n => ?_)
      fun hp hs' hm => hp hs' (by
        rw [headerParts]
        exact List.mem_cons_of_mem _ hm)
    constructor
    · rintro ⟨b, hc, hf, rfl⟩
      cases hc with
      | tuple _ bs hl hc => exact ⟨bs, hl, hc, hf.of_tuple, by rw [bodyWire]⟩
    · rintro ⟨bs, hl, hc, hf, rfl⟩
      exact ⟨.tuple bs, .tuple hs bs hl hc, .tuple hf, by rw [bodyWire]⟩
  | .map h => by
    simp only [minBody, maxBody]
    exact (sizedBody_map (sized_body (t := t) (mode := mode) h)).congr (fun _ => .rfl)
      fun hp => populated_mono hp fun x hx => by
        rw [headerParts]; exact List.mem_cons_of_mem _ hx
  | .enum hs => by
    rw [minBody, maxBody]
    refine (sized_variant (t := t) (mode := mode) 0 hs).congr (fun n => ?_)
      fun hp => ⟨(hp hs (Body.self_mem_headerParts _)).1, by
        have := (hp hs (Body.self_mem_headerParts _)).2; omega, fun hs' hm => hp hs' (by
        rw [headerParts]
        exact List.mem_cons_of_mem _ hm)⟩
    constructor
    · rintro ⟨b, hc, hf, rfl⟩
      cases hc with
      | enum _ i h b hi hc =>
        exact ⟨i.toNat, h, b, hi, by have := i.toNat_lt; omega, hc, hf.mono fun x hx => by
          rw [parts]; exact List.mem_cons_of_mem _ hx, by
          rw [bodyWire, List.length_append, Nat.zero_add]⟩
    · rintro ⟨i, h, b, hi, hl, hc, hf, rfl⟩
      have e := ofNat_toNat (k := i) (by omega)
      exact ⟨.enum (UInt32.ofNat i) b, .enum hs _ h b (by rw [e]; exact hi) hc, hf.enum _, by
        rw [bodyWire, List.length_append, e, Nat.zero_add]⟩
  | .date => sizedBody_date
  | .dateTime => sizedBody_dateTime
theorem sized_bodies {t : Target} {mode : BuildMode} : (hs : List Header) →
    Sized (top t) (fun n => ∃ bs : List Body, hs.length = bs.length ∧
        (∀ (i : Nat) (h : Header) (b : Body), hs[i]? = some h → bs[i]? = some b → Conforms h b) ∧
        (∀ b ∈ bs, Fine t mode b) ∧ (bodiesWire bs).length = n)
      (∀ hs', .enum hs' ∈ headersParts hs → hs' ≠ [] ∧ hs'.length ≤ 2 ^ 32)
      (minBodies hs) (maxBodies t hs)
  | [] => by
    rw [minBodies, maxBodies]
    refine (Sized.one (P := True) 0).congr (fun n => ?_) fun _ => trivial
    constructor
    · rintro ⟨bs, hl, -, -, rfl⟩
      rw [List.length_eq_zero_iff.mp hl.symm]; rfl
    · rintro rfl; exact ⟨[], rfl, by simp, by simp, rfl⟩
  | h :: hs => by
    rw [minBodies, maxBodies]
    refine ((sized_body (t := t) (mode := mode) h).add (sized_bodies (mode := mode) hs)).congr (fun n => ?_)
      fun hp => ⟨fun hs' hm => hp hs' (by rw [headersParts]; exact List.mem_append_left _ hm),
        fun hs' hm => hp hs' (by rw [headersParts]; exact List.mem_append_right _ hm)⟩
    constructor
    · rintro ⟨bs, hl, hc, hf, rfl⟩
      cases bs with
      | nil => cases hl
      | cons b bs =>
        exact ⟨_, _, ⟨b, hc 0 h b rfl rfl, hf b List.mem_cons_self, rfl⟩,
          ⟨bs, Nat.succ.inj hl, fun i h b h1 h2 => hc (i + 1) h b h1 h2,
            fun c hc' => hf c (List.mem_cons_of_mem _ hc'), rfl⟩, by
          rw [bodiesWire, List.length_append]⟩
    · rintro ⟨x, y, ⟨b, hc, hf, rfl⟩, ⟨bs, hl, hcs, hfs, rfl⟩, rfl⟩
      refine ⟨b :: bs, by simp [hl], fun i h' b' h1 h2 => ?_, fun c hc' => ?_, by
        rw [bodiesWire, List.length_append]⟩
      · cases i with
        | zero => cases h1; cases h2; exact hc
        | succ i => exact hcs i h' b' h1 h2
      · rcases List.mem_cons.mp hc' with rfl | hc'
        · exact hf
        · exact hfs c hc'
theorem sized_variant {t : Target} {mode : BuildMode} : (k : Nat) → (hs : List Header) →
    Sized (top t) (fun n => ∃ i h b, hs[i]? = some h ∧ k + i < 2 ^ 32 ∧ Conforms h b ∧
        Fine t mode b ∧ (varint 32 (k + i)).length + (bodyWire b).length = n)
      (hs ≠ [] ∧ k + hs.length ≤ 2 ^ 32 ∧
        ∀ hs', .enum hs' ∈ headersParts hs → hs' ≠ [] ∧ hs'.length ≤ 2 ^ 32)
      (minVariant k hs) (maxVariant t k hs)
  | k, [] => {
      ge := fun n h => by obtain ⟨i, h, b, hi, -⟩ := h; simp at hi
      le := fun n h => by obtain ⟨i, h, b, hi, -⟩ := h; simp at hi
      lo_mem := fun h => absurd rfl h.1
      hi_mem := fun h => absurd rfl h.1
      unbounded := fun h => absurd rfl h.1 }
  | k, [h] => by
    rw [minVariant, maxVariant, maxVariant]
    have e : maxBound (addBound (some (varint 32 k).length) (maxBody t h)) (some 0)
        = addBound (some (varint 32 k).length) (maxBody t h) := by
      cases maxBody t h with
      | none => rfl
      | some m => simp only [addBound, maxBound]; congr 1; omega
    rw [e]
    have hS := (Sized.one (N := top t) (P := True) (varint 32 k).length).add
      (sized_body (t := t) (mode := mode) h)
    by_cases hk : k < 2 ^ 32
    · refine hS.congr (fun n => ?_) fun hp => ⟨trivial, fun hs' hm => hp.2.2 hs' (by
        rw [headersParts, headersParts]; simpa using hm)⟩
      constructor
      · rintro ⟨i, h', b, hi, -, hc, hf, rfl⟩
        cases i with
        | succ i => simp at hi
        | zero =>
          cases hi
          exact ⟨_, _, rfl, ⟨b, hc, hf, rfl⟩, by rw [Nat.add_zero]⟩
      · rintro ⟨x, y, rfl, ⟨b, hc, hf, rfl⟩, rfl⟩
        exact ⟨0, h, b, rfl, by omega, hc, hf, by rw [Nat.add_zero]⟩
    · exact {
        ge := fun n h => by obtain ⟨i, h, b, hi, hl, -⟩ := h; omega
        le := fun n h => by obtain ⟨i, h, b, hi, hl, -⟩ := h; omega
        lo_mem := fun h => by have := h.2.1; simp at this; omega
        hi_mem := fun h => by have := h.2.1; simp at this; omega
        unbounded := fun h => by have := h.2.1; simp at this; omega }
  | k, h :: h2 :: hs => by
    rw [minVariant, maxVariant]
    have hS := (Sized.one (N := top t) (P := True) (varint 32 k).length).add
      (sized_body (t := t) (mode := mode) h)
    have hS2 := sized_variant (t := t) (mode := mode) (k + 1) (h2 :: hs)
    by_cases hk : k < 2 ^ 32
    · refine (hS.union hS2).congr (fun n => ?_) fun hp => ⟨⟨trivial, fun hs' hm => hp.2.2 hs' (by
          rw [headersParts]; exact List.mem_append_left _ hm)⟩, by simp, by
          have := hp.2.1; simp at this ⊢; omega, fun hs' hm => hp.2.2 hs' (by
          rw [headersParts]; exact List.mem_append_right _ hm)⟩
      constructor
      · rintro ⟨i, h', b, hi, hl, hc, hf, rfl⟩
        cases i with
        | zero =>
          cases hi
          exact .inl ⟨_, _, rfl, ⟨b, hc, hf, rfl⟩, by rw [Nat.add_zero]⟩
        | succ i =>
          exact .inr ⟨i, h', b, hi, by omega, hc, hf, by
            rw [Nat.add_assoc, Nat.add_comm 1 i]⟩
      · rintro (⟨x, y, rfl, ⟨b, hc, hf, rfl⟩, rfl⟩ | ⟨i, h', b, hi, hl, hc, hf, rfl⟩)
        · exact ⟨0, h, b, rfl, by omega, hc, hf, by rw [Nat.add_zero]⟩
        · exact ⟨i + 1, h', b, hi, by omega, hc, hf, by
            rw [Nat.add_assoc, Nat.add_comm 1 i]⟩
    · exact {
        ge := fun n h => by obtain ⟨i, h, b, hi, hl, -⟩ := h; omega
        le := fun n h => by obtain ⟨i, h, b, hi, hl, -⟩ := h; omega
        lo_mem := fun h => by have := h.2.1; simp at this; omega
        hi_mem := fun h => by have := h.2.1; simp at this; omega
        unbounded := fun h => by have := h.2.1; simp at this; omega }
end

/-! ## Maps in another order -/

open Derive in
mutual
theorem spells_length : (b : Body) → (bs : List UInt8) → Spells b bs →
    bs.length = (bodyWire b).length
  | .some b, bs, h => by
    rw [Spells] at h
    obtain ⟨bs', rfl, h⟩ := h
    rw [bodyWire, List.length_cons, List.length_cons, spells_length b bs' h]
  | .array cs, bs, h => by
    rw [Spells] at h
    obtain ⟨bs', rfl, h⟩ := h
    rw [bodyWire, List.length_append, List.length_append, spellsAll_length cs bs' h]
  | .tuple cs, bs, h => by
    rw [Spells] at h
    rw [bodyWire, spellsAll_length cs bs h]
  | .map es, bs, h => by
    rw [Spells] at h
    obtain ⟨ks, ks', h, hp, rfl⟩ := h
    rw [bodyWire, List.length_append, List.length_append, ← spellsEntries_length es ks h]
    congr 1
    rw [List.length_flatten, List.length_flatten, List.map_map, List.map_map]
    exact ((hp.map _).sum_nat).symm
  | .enum i b, bs, h => by
    rw [Spells] at h
    obtain ⟨bs', rfl, h⟩ := h
    rw [bodyWire, List.length_append, List.length_append, spells_length b bs' h]
  | .unit, bs, h => by simp only [Spells] at h; rw [h]
  | .none, bs, h => by simp only [Spells] at h; rw [h]
  | .boolean _, bs, h => by simp only [Spells] at h; rw [h]
  | .uint8 _, bs, h => by simp only [Spells] at h; rw [h]
  | .uint16 _, bs, h => by simp only [Spells] at h; rw [h]
  | .uint32 _, bs, h => by simp only [Spells] at h; rw [h]
  | .uint64 _, bs, h => by simp only [Spells] at h; rw [h]
  | .int8 _, bs, h => by simp only [Spells] at h; rw [h]
  | .int16 _, bs, h => by simp only [Spells] at h; rw [h]
  | .int32 _, bs, h => by simp only [Spells] at h; rw [h]
  | .int64 _, bs, h => by simp only [Spells] at h; rw [h]
  | .float32 _, bs, h => by simp only [Spells] at h; rw [h]
  | .float64 _, bs, h => by simp only [Spells] at h; rw [h]
  | .bigUInt _, bs, h => by simp only [Spells] at h; rw [h]
  | .bigInt _, bs, h => by simp only [Spells] at h; rw [h]
  | .bigDecimal _, bs, h => by simp only [Spells] at h; rw [h]
  | .string _, bs, h => by simp only [Spells] at h; rw [h]
  | .binary _, bs, h => by simp only [Spells] at h; rw [h]
  | .date _, bs, h => by simp only [Spells] at h; rw [h]
  | .dateTime _, bs, h => by simp only [Spells] at h; rw [h]
theorem spellsAll_length : (cs : List Body) → (bs : List UInt8) → SpellsAll cs bs →
    bs.length = (bodiesWire cs).length
  | [], bs, h => by rw [SpellsAll] at h; subst h; rfl
  | c :: cs, bs, h => by
    rw [SpellsAll] at h
    obtain ⟨x, y, rfl, h1, h2⟩ := h
    rw [bodiesWire, List.length_append, List.length_append, spells_length c x h1,
      spellsAll_length cs y h2]
theorem spellsEntries_length : (es : List (String × Body)) → (ks : List (String × List UInt8)) →
    SpellsEntries es ks → (ks.map fun k => block (utf8 k.1) ++ k.2).flatten.length =
      (entriesWire es).length
  | [], ks, h => by rw [SpellsEntries] at h; subst h; rfl
  | (k, c) :: es, ks, h => by
    rw [SpellsEntries] at h
    obtain ⟨x, ks', rfl, h1, h2⟩ := h
    rw [entriesWire, List.map_cons, List.flatten_cons, List.length_append, List.length_append,
      List.length_append, List.length_append, spells_length c x h1, spellsEntries_length es ks' h2]
end

end Dlhn.Spec
