import Verif.Spec.Seek
/-! # Records of fixed size -/
namespace Dlhn

open Spec

theorem drop_flatten {n : Nat} (xs : List (List UInt8)) (h : ∀ x ∈ xs, x.length = n) (k : Nat) :
    xs.flatten.drop (k * n) = (xs.drop k).flatten := by
  induction k generalizing xs with
  | zero => simp
  | succ k ih =>
    cases xs with
    | nil => simp
    | cons x xs =>
      have hx := h x List.mem_cons_self
      rw [List.flatten_cons, Nat.succ_mul, Nat.add_comm, ← hx, ← List.drop_drop, List.drop_left, hx,
        ih xs fun y hy => h y (List.mem_cons_of_mem _ hy)]
      rfl

theorem take_flatten {n : Nat} (xs : List (List UInt8)) (h : ∀ x ∈ xs, x.length = n) (k : Nat) :
    xs.flatten.take (k * n) = (xs.take k).flatten := by
  induction k generalizing xs with
  | zero => simp
  | succ k ih =>
    cases xs with
    | nil => simp
    | cons x xs =>
      have hx := h x List.mem_cons_self
      rw [List.flatten_cons, Nat.succ_mul, Nat.add_comm, ← hx, List.take_length_add_append, hx,
        ih xs fun y hy => h y (List.mem_cons_of_mem _ hy)]
      rfl

theorem length_flatten_fixed {n : Nat} (xs : List (List UInt8)) (h : ∀ x ∈ xs, x.length = n) :
    xs.flatten.length = xs.length * n := by
  induction xs with
  | nil => simp
  | cons x xs ih =>
    rw [List.flatten_cons, List.length_append, h x List.mem_cons_self,
      ih fun y hy => h y (List.mem_cons_of_mem _ hy), List.length_cons, Nat.succ_mul, Nat.add_comm]

/-- The bytes from record `k` on. -/
theorem drop_record {n : Nat} (front : List UInt8) (xs : List (List UInt8))
    (h : ∀ x ∈ xs, x.length = n) (k : Nat) :
    (front ++ xs.flatten).drop (front.length + k * n) = (xs.drop k).flatten := by
  rw [← List.drop_drop, List.drop_left, drop_flatten xs h]

theorem drop_record_cons {n : Nat} (front : List UInt8) (xs : List (List UInt8))
    (h : ∀ x ∈ xs, x.length = n) (k : Nat) (x : List UInt8) (hk : xs[k]? = some x) :
    (front ++ xs.flatten).drop (front.length + k * n) =
      x ++ (front ++ xs.flatten).drop (front.length + (k + 1) * n) := by
  rw [drop_record front xs h, drop_record front xs h]
  obtain ⟨hlt, rfl⟩ := List.getElem?_eq_some_iff.mp hk
  rw [List.drop_eq_getElem_cons hlt, List.flatten_cons]

/-- Writing (the first bytes of) a record over record `k`. -/
theorem overwritten_record {n : Nat} (front : List UInt8) (xs : List (List UInt8))
    (h : ∀ x ∈ xs, x.length = n) (k : Nat) (x : List UInt8) (hk : xs[k]? = some x)
    (bs : List UInt8) (hb : bs.length ≤ n) :
    overwritten (front ++ xs.flatten) (front.length + k * n) bs =
      front ++ (xs.set k (bs ++ x.drop bs.length)).flatten := by
  obtain ⟨hlt, rfl⟩ := List.getElem?_eq_some_iff.mp hk
  have hl : xs[k].length = n := h _ (List.getElem_mem hlt)
  rw [overwritten, ← List.drop_drop, drop_record front xs h, List.take_length_add_append,
    take_flatten xs h, List.drop_eq_getElem_cons hlt, List.flatten_cons,
    List.drop_append_of_le_length (by omega), List.set_eq_take_append_cons_drop, if_pos hlt,
    List.flatten_append, List.flatten_cons]
  simp [List.append_assoc]

theorem set_lengths {n : Nat} (xs : List (List UInt8)) (h : ∀ x ∈ xs, x.length = n) (k : Nat)
    (y : List UInt8) (hy : y.length = n) : ∀ x ∈ xs.set k y, x.length = n := by
  intro x hx
  rcases List.mem_or_eq_of_mem_set hx with hx | rfl
  · exact h x hx
  · exact hy

end Dlhn
