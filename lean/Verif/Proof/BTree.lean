import Verif.Spec.Body
import Verif.Proof.De
/-! # The ordered map of the dynamic decoder -/
namespace Dlhn

open Spec

variable {α : Type}

theorem strLt_iff {a b : String} : strLt a b = true ↔ utf8 a < utf8 b := by
  rw [strLt, decide_eq_true_eq]
  rfl

theorem utf8_inj {a b : String} (h : utf8 a = utf8 b) : a = b := by
  have h1 := De.fromUtf8_utf8 a
  rw [h, De.fromUtf8_utf8 b] at h1
  simpa using h1.symm

theorem bytes_lt_trans {a b c : List UInt8} (h1 : a < b) (h2 : b < c) : a < c := List.lt_trans h1 h2
theorem bytes_lt_irrefl (a : List UInt8) : ¬ a < a := List.lt_irrefl a
theorem bytes_lt_asymm {a b : List UInt8} (h : a < b) : ¬ b < a := List.lt_asymm h
theorem bytes_eq_of_not_lt {a b : List UInt8} (h1 : ¬ a < b) (h2 : ¬ b < a) : a = b :=
  List.le_antisymm h2 h1

/-- The three cases of `btreeInsert`. -/
theorem btreeInsert_cons (k : String) (v : α) (k' : String) (v' : α)
    (es : List (String × α)) :
    (utf8 k < utf8 k' ∧ btreeInsert k v ((k', v') :: es) = (k, v) :: (k', v') :: es) ∨
    (utf8 k' < utf8 k ∧ btreeInsert k v ((k', v') :: es) = (k', v') :: btreeInsert k v es) ∨
    (k = k' ∧ btreeInsert k v ((k', v') :: es) = (k, v) :: es) := by
  rw [btreeInsert]
  by_cases h1 : strLt k k' = true
  · exact .inl ⟨strLt_iff.mp h1, by rw [if_pos h1]⟩
  · by_cases h2 : strLt k' k = true
    · exact .inr (.inl ⟨strLt_iff.mp h2, by rw [if_neg h1, if_pos h2]⟩)
    · have : k = k' := utf8_inj (bytes_eq_of_not_lt (fun h => h1 (strLt_iff.mpr h))
        fun h => h2 (strLt_iff.mpr h))
      exact .inr (.inr ⟨this, by rw [if_neg h1, if_neg h2, this]⟩)

theorem btreeInsert_last (k : String) (v : α) (m : List (String × α))
    (h : ∀ e ∈ m, utf8 e.1 < utf8 k) : btreeInsert k v m = m ++ [(k, v)] := by
  induction m with
  | nil => rfl
  | cons e m ih =>
    obtain ⟨k', v'⟩ := e
    have hlt : utf8 k' < utf8 k := h (k', v') (by simp)
    rcases btreeInsert_cons k v k' v' m with ⟨h1, _⟩ | ⟨_, h2⟩ | ⟨h1, _⟩
    · exact absurd h1 (bytes_lt_asymm hlt)
    · rw [h2, ih fun e he => h e (by simp [he])]
      rfl
    · subst h1; exact absurd hlt (bytes_lt_irrefl _)

/-- Inserting one entry after another. -/
def insertAll (m : List (String × α)) (es : List (String × α)) : List (String × α) :=
  es.foldl (fun m e => btreeInsert e.1 e.2 m) m

theorem insertAll_ascending (es : List (String × α)) (m : List (String × α))
    (h : Ascending (m ++ es)) : insertAll m es = m ++ es := by
  induction es generalizing m with
  | nil => simp [insertAll]
  | cons e es ih =>
    have hm : ∀ x ∈ m, utf8 x.1 < utf8 e.1 := fun x hx =>
      (List.pairwise_append.mp h).2.2 x hx e (by simp)
    have : insertAll m (e :: es) = insertAll (btreeInsert e.1 e.2 m) es := rfl
    rw [this, btreeInsert_last _ _ _ hm, ih _ (by simpa using h)]
    simp

theorem mem_btreeInsert {m : List (String × α)} (hm : Ascending m) (k0 : String) (v0 : α)
    (e : String × α) :
    e ∈ btreeInsert k0 v0 m ↔ e = (k0, v0) ∨ (e.1 ≠ k0 ∧ e ∈ m) := by
  induction m with
  | nil => simp [btreeInsert]
  | cons x m ih =>
    obtain ⟨k', v'⟩ := x
    obtain ⟨hx, hm'⟩ := List.pairwise_cons.mp hm
    have hne : ∀ y ∈ m, y.1 ≠ k' := fun y hy he => bytes_lt_irrefl (utf8 k') (by
      have := hx y hy
      rwa [he] at this)
    rcases btreeInsert_cons k0 v0 k' v' m with ⟨h1, h2⟩ | ⟨h1, h2⟩ | ⟨h1, h2⟩
    · rw [h2, List.mem_cons]
      constructor
      · rintro (h | h)
        · exact .inl h
        · refine .inr ⟨?_, h⟩
          rintro rfl
          rcases List.mem_cons.mp h with h | h
          · rw [h] at h1; exact bytes_lt_irrefl _ h1
          · exact bytes_lt_asymm h1 (hx e h)
      · rintro (h | ⟨_, h⟩)
        · exact .inl h
        · exact .inr h
    · rw [h2, List.mem_cons, ih hm']
      constructor
      · rintro (h | h | ⟨h, h'⟩)
        · refine .inr ⟨?_, by simp [h]⟩
          rintro rfl
          rw [h] at h1
          exact bytes_lt_irrefl _ h1
        · exact .inl h
        · exact .inr ⟨h, by simp [h']⟩
      · rintro (h | ⟨h, h'⟩)
        · exact .inr (.inl h)
        · rcases List.mem_cons.mp h' with h' | h'
          · exact .inl h'
          · exact .inr (.inr ⟨h, h'⟩)
    · subst h1
      rw [h2, List.mem_cons]
      constructor
      · rintro (h | h)
        · exact .inl h
        · exact .inr ⟨hne e h, by simp [h]⟩
      · rintro (h | ⟨h, h'⟩)
        · exact .inl h
        · rcases List.mem_cons.mp h' with h' | h'
          · exact absurd (by rw [h']) h
          · exact .inr h'

theorem ascending_btreeInsert {m : List (String × α)} (hm : Ascending m) (k0 : String)
    (v0 : α) : Ascending (btreeInsert k0 v0 m) := by
  induction m with
  | nil => simp [btreeInsert, Ascending]
  | cons x m ih =>
    obtain ⟨k', v'⟩ := x
    obtain ⟨hx, hm'⟩ := List.pairwise_cons.mp hm
    rcases btreeInsert_cons k0 v0 k' v' m with ⟨h1, h2⟩ | ⟨h1, h2⟩ | ⟨h1, h2⟩
    · rw [h2]
      refine List.pairwise_cons.mpr ⟨fun y hy => ?_, hm⟩
      rcases List.mem_cons.mp hy with rfl | hy
      · exact h1
      · exact bytes_lt_trans h1 (hx y hy)
    · rw [h2]
      refine List.pairwise_cons.mpr ⟨fun y hy => ?_, ih hm'⟩
      rcases (mem_btreeInsert hm' k0 v0 y).mp hy with rfl | ⟨_, hy⟩
      · exact h1
      · exact hx y hy
    · subst h1
      rw [h2]
      exact List.pairwise_cons.mpr ⟨hx, hm'⟩

theorem ascending_insertAll (es : List (String × α)) {m : List (String × α)}
    (hm : Ascending m) : Ascending (insertAll m es) := by
  induction es generalizing m with
  | nil => exact hm
  | cons e es ih => exact ih (ascending_btreeInsert hm _ _)

theorem insertAll_append (m es es' : List (String × α)) :
    insertAll m (es ++ es') = insertAll (insertAll m es) es' := by
  simp [insertAll, List.foldl_append]

/-- Which entries a map built from `es` has: the last entry for each key. -/
theorem mem_insertAll (es : List (String × α)) (e : String × α) :
    e ∈ insertAll [] es ↔ ∃ before after, es = before ++ e :: after ∧ ∀ x ∈ after, x.1 ≠ e.1 := by
  have hnil : Ascending ([] : List (String × α)) := List.Pairwise.nil
  have key : ∀ (rs : List (String × α)), (e ∈ insertAll [] rs.reverse ↔
      ∃ before after, rs.reverse = before ++ e :: after ∧ ∀ x ∈ after, x.1 ≠ e.1) := by
    intro rs
    induction rs with
    | nil => simp [insertAll]
    | cons x rs ih =>
      rw [List.reverse_cons, insertAll_append]
      have hstep : insertAll (insertAll [] rs.reverse) [x] =
          btreeInsert x.1 x.2 (insertAll [] rs.reverse) := rfl
      rw [hstep, mem_btreeInsert (ascending_insertAll _ hnil), ih]
      constructor
      · rintro (h | ⟨h, before, after, h1, h2⟩)
        · exact ⟨rs.reverse, [], by rw [h], by simp⟩
        · refine ⟨before, after ++ [x], by rw [h1]; simp, fun y hy => ?_⟩
          rcases List.mem_append.mp hy with hy | hy
          · exact h2 y hy
          · rw [List.mem_singleton.mp hy]; exact fun he => h he.symm
      · rintro ⟨before, after, h1, h2⟩
        rcases List.eq_nil_or_concat after with rfl | ⟨as, y, rfl⟩
        · have := List.append_inj_right' h1 rfl
          left
          simp at this
          exact this.symm
        · have h3 : rs.reverse ++ [x] = (before ++ e :: as) ++ [y] := by rw [h1]; simp
          obtain ⟨h4, h5⟩ := List.append_inj' h3 rfl
          simp at h5
          subst h5
          exact .inr ⟨fun he => h2 x (by simp) he.symm, before, as, h4,
            fun z hz => h2 z (by simp [hz])⟩
  have := key es.reverse
  rwa [List.reverse_reverse] at this

/-- Two maps with the same entries are equal. -/
theorem ascending_ext {m m' : List (String × α)} (hm : Ascending m) (hm' : Ascending m')
    (h : ∀ e, e ∈ m ↔ e ∈ m') : m = m' := by
  induction m generalizing m' with
  | nil =>
    cases m' with
    | nil => rfl
    | cons x m' => exact absurd ((h x).mpr (by simp)) (by simp)
  | cons x m ih =>
    cases m' with
    | nil => exact absurd ((h x).mp (by simp)) (by simp)
    | cons y m' =>
      obtain ⟨hx, hm1⟩ := List.pairwise_cons.mp hm
      obtain ⟨hy, hm2⟩ := List.pairwise_cons.mp hm'
      have hxy : x = y := by
        rcases List.mem_cons.mp ((h x).mp (by simp)) with h1 | h1
        · exact h1
        · rcases List.mem_cons.mp ((h y).mpr (by simp)) with h2 | h2
          · exact h2.symm
          · exact absurd (hx y h2) (bytes_lt_asymm (hy x h1))
      subst hxy
      refine congrArg (x :: ·) (ih hm1 hm2 fun e => ⟨fun he => ?_, fun he => ?_⟩)
      · rcases List.mem_cons.mp ((h e).mp (by simp [he])) with h1 | h1
        · subst h1; exact absurd (hx e he) (bytes_lt_irrefl _)
        · exact h1
      · rcases List.mem_cons.mp ((h e).mpr (by simp [he])) with h1 | h1
        · subst h1; exact absurd (hy e he) (bytes_lt_irrefl _)
        · exact h1

end Dlhn
