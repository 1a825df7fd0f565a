import Verif.Proof.Network
import Verif.Spec.Pipeline
/-!
# Lemmas about pipelines
-/
namespace Dlhn.Props

open Spec hiding variantFields

variable {α : Type}

theorem pipeline_wired (n : Nat) (enc : Nat → α → WProg SerErr) (dec : Nat → Prog DeErr α)
    (f : Nat → α → α) (room : Nat → Option Nat) : (pipeline n enc dec f room).Wired := by
  intro i s
  match s with
  | .sends [] => exact trivial
  | .sends (v :: vs) =>
    by_cases h : i = 0
    · simp [pipeline, h]
    · simp [pipeline, h]
  | .waits got =>
    by_cases h : 1 ≤ i ∧ i ≤ n + 1
    · have : i - 1 + 1 = i := by omega
      simp [pipeline, h, this]
    · simp [pipeline, h]
  | .holds got v =>
    by_cases h : 1 ≤ i ∧ i ≤ n
    · simp [pipeline, h]
    · simp [pipeline, h]
  | .over _ => exact trivial
  | .failed => exact trivial

/-- Between two values of the first program. -/
def pipelineAt (n : Nat) (f : Nat → α → α) (todo got : List α) (i : Nat) : Station α :=
  if i = 0 then .sends todo else if i ≤ n + 1 then .waits (got.map (through f (i - 1)))
  else .over []

/-- While a value is with program `k`. -/
def pipelineWith (n : Nat) (f : Nat → α → α) (todo got : List α) (v : α) (k i : Nat) : Station α :=
  if i = 0 then .sends todo
  else if i < k then .waits ((got ++ [v]).map (through f (i - 1)))
  else if i = k then .holds ((got ++ [v]).map (through f (i - 1))) (through f k v)
  else if i ≤ n + 1 then .waits (got.map (through f (i - 1)))
  else .over []

/-- While the programs end, after program `k` has ended. -/
def pipelineOver (n : Nat) (f : Nat → α → α) (vs : List α) (k i : Nat) : Station α :=
  if i = 0 then .sends [] else if i ≤ k then .over (vs.map (through f (i - 1)))
  else if i ≤ n + 1 then .waits (vs.map (through f (i - 1))) else .over []

section
variable (t : Target) (n : Nat) (enc : Nat → α → WProg SerErr) (dec : Nat → Prog DeErr α)
  (f : Nat → α → α) (room : Nat → Option Nat)

/-- The first program sends a value to the second, if that passes it on. -/
theorem pipeline_first (hn : 0 < n) (todo got : List α) (v : α)
    (h : Hears t (enc 0 v) (dec 0) v) :
    ValueStep t (pipeline n enc dec f room) (pipelineAt n f (v :: todo) got)
      (pipelineWith n f todo got v 1) := by
  have h1 := ValueStep.pass (t := t) (net := pipeline n enc dec f room)
    (s := pipelineAt n f (v :: todo) got) (c := 0) (i := 0) (j := 1)
    (p := enc 0 v) (q := dec 0) (sent := fun
        | .ok _ => .sends todo
        | .error _ => .failed) (heard := fun
        | .ok v => if 1 = n + 1 then .waits (got ++ [v]) else .holds (got ++ [v]) (f 1 v)
        | .error _ => .over got) (by decide)
    (by simp only [pipelineAt, pipeline, if_true]; rfl)
    (by
      have : through f 0 = id := rfl
      simp [pipelineAt, pipeline, this]
      funext x; cases x <;> rfl) h
  refine cast ?_ h1
  congr 1
  funext i
  have : ¬ n = 0 := by omega
  have h0 : through f 0 = id := rfl
  by_cases i0 : i = 0
  · simp [setAt, pipelineWith, i0]
  · by_cases i1 : i = 1
    · simp [setAt, pipelineWith, i1, this, through, h0]
    · have : ¬ i < 1 := by omega
      simp [setAt, pipelineWith, pipelineAt, i0, i1, this]

/-- A program passes a value on to one that passes it on. -/
theorem pipeline_next (k : Nat) (hk : 0 < k) (hn : k < n) (todo got : List α) (v : α)
    (h : Hears t (enc k (through f k v)) (dec k) (through f k v)) :
    ValueStep t (pipeline n enc dec f room) (pipelineWith n f todo got v k)
      (pipelineWith n f todo got v (k + 1)) := by
  have k0 : ¬ k = 0 := by omega
  have k1 : ¬ k < k := by omega
  have k2 : ¬ k + 1 < k := by omega
  have k3 : k + 1 ≤ n + 1 := by omega
  have k4 : ¬ k = n := by omega
  have k5 : 1 ≤ k := by omega
  have k6 : k ≤ n := by omega
  have h1 := ValueStep.pass (t := t) (net := pipeline n enc dec f room)
    (s := pipelineWith n f todo got v k) (c := k) (i := k) (j := k + 1)
    (p := enc k (through f k v)) (q := dec k) (sent := fun
        | .ok _ => .waits ((got ++ [v]).map (through f (k - 1)))
        | .error _ => .failed) (heard := fun
        | .ok w => if k + 1 = n + 1 then .waits (got.map (through f k) ++ [w])
          else .holds (got.map (through f k) ++ [w]) (f (k + 1) w)
        | .error _ => .over (got.map (through f k))) (by omega)
    (by simp [pipelineWith, pipeline, k0, k5, k6]; funext x; cases x <;> rfl)
    (by simp [pipelineWith, pipeline, k0, k2, k6]; funext x; cases x <;> rfl) h
  refine cast ?_ h1
  congr 1
  funext i
  by_cases i0 : i = 0
  · have : ¬ 0 = k := by omega
    simp [setAt, pipelineWith, i0, this]
  · by_cases i1 : i = k + 1
    · simp [setAt, pipelineWith, i1, k4, through]
    · by_cases i2 : i = k
      · simp [setAt, pipelineWith, i2, k0]
      · by_cases i3 : i < k
        · have : i < k + 1 := by omega
          simp [setAt, pipelineWith, i0, i1, i2, i3, this]
        · have : ¬ i < k + 1 := by omega
          simp [setAt, pipelineWith, i0, i1, i2, i3, this]

/-- The last program gets a value. -/
theorem pipeline_last (hn : 0 < n) (todo got : List α) (v : α)
    (h : Hears t (enc n (through f n v)) (dec n) (through f n v)) :
    ValueStep t (pipeline n enc dec f room) (pipelineWith n f todo got v n)
      (pipelineAt n f todo (got ++ [v])) := by
  have k0 : ¬ n = 0 := by omega
  have k2 : ¬ n + 1 < n := by omega
  have k5 : 1 ≤ n := by omega
  have h1 := ValueStep.pass (t := t) (net := pipeline n enc dec f room)
    (s := pipelineWith n f todo got v n) (c := n) (i := n) (j := n + 1)
    (p := enc n (through f n v)) (q := dec n) (sent := fun
        | .ok _ => .waits ((got ++ [v]).map (through f (n - 1)))
        | .error _ => .failed) (heard := fun
        | .ok w => if n + 1 = n + 1 then .waits (got.map (through f n) ++ [w])
          else .holds (got.map (through f n) ++ [w]) (f (n + 1) w)
        | .error _ => .over (got.map (through f n))) (by omega)
    (by simp [pipelineWith, pipeline, k0, k5]; funext x; cases x <;> rfl)
    (by simp [pipelineWith, pipeline, k2]; funext x; cases x <;> rfl) h
  refine cast ?_ h1
  congr 1
  funext i
  by_cases i0 : i = 0
  · have : ¬ 0 = n := by omega
    simp [setAt, pipelineWith, pipelineAt, i0, this]
  · by_cases i1 : i = n + 1
    · simp [setAt, pipelineAt, i1]
    · by_cases i2 : i = n
      · simp [setAt, pipelineAt, i2, k0]
      · by_cases i3 : i < n
        · have : i ≤ n + 1 := by omega
          simp [setAt, pipelineWith, pipelineAt, i0, i1, i2, i3, this]
        · have : ¬ i ≤ n + 1 := by omega
          simp [setAt, pipelineWith, pipelineAt, i0, i1, i2, i3, this]

/-- Without programs in between, the first program sends a value to the last. -/
theorem pipeline_straight (todo got : List α) (v : α) (h : Hears t (enc 0 v) (dec 0) v) :
    ValueStep t (pipeline 0 enc dec f room) (pipelineAt 0 f (v :: todo) got)
      (pipelineAt 0 f todo (got ++ [v])) := by
  have h0 : through f 0 = id := rfl
  have h1 := ValueStep.pass (t := t) (net := pipeline 0 enc dec f room)
    (s := pipelineAt 0 f (v :: todo) got) (c := 0) (i := 0) (j := 1)
    (p := enc 0 v) (q := dec 0) (sent := fun
        | .ok _ => .sends todo
        | .error _ => .failed) (heard := fun
        | .ok v => if 1 = 0 + 1 then .waits (got ++ [v]) else .holds (got ++ [v]) (f 1 v)
        | .error _ => .over got) (by decide)
    (by simp only [pipelineAt, pipeline, if_true]; rfl)
    (by simp [pipelineAt, pipeline, h0]; funext x; cases x <;> rfl) h
  refine cast ?_ h1
  congr 1
  funext i
  by_cases i0 : i = 0
  · simp [setAt, pipelineAt, i0]
  · by_cases i1 : i = 1
    · simp [setAt, pipelineAt, i1, h0]
    · have : ¬ i ≤ 0 + 1 := by omega
      simp [setAt, pipelineAt, i0, i1, this]

theorem _root_.Dlhn.Spec.Talk.trans {S : Type} {t : Target} {net : Net S} {k l : Nat}
    {s s' s'' : Nat → S} (h : Talk t net k s s') (h' : Talk t net l s' s'') :
    Talk t net (k + l) s s'' := by
  induction h' with
  | start => exact h
  | step _ more ih => exact .step (ih h) more

theorem pipeline_with (todo got : List α) (v : α) (hn : 0 < n)
    (h : ∀ k, k ≤ n → Hears t (enc k (through f k v)) (dec k) (through f k v)) :
    ∀ k, k < n → Talk t (pipeline n enc dec f room) (k + 1) (pipelineAt n f (v :: todo) got)
      (pipelineWith n f todo got v (k + 1))
  | 0, _ => .step .start (pipeline_first t n enc dec f room hn todo got v (h 0 (by omega)))
  | k + 1, hk => .step (pipeline_with todo got v hn h k (by omega))
      (pipeline_next t n enc dec f room (k + 1) (by omega) hk todo got v (h (k + 1) (by omega)))

/-- A value goes through the pipeline. -/
theorem pipeline_value (todo got : List α) (v : α)
    (h : ∀ k, k ≤ n → Hears t (enc k (through f k v)) (dec k) (through f k v)) :
    Talk t (pipeline n enc dec f room) (n + 1) (pipelineAt n f (v :: todo) got)
      (pipelineAt n f todo (got ++ [v])) := by
  match n, h with
  | 0, h => exact .step .start (pipeline_straight t enc dec f room todo got v (h 0 (by omega)))
  | n + 1, h =>
    exact .step (pipeline_with t (n + 1) enc dec f room todo got v (by omega) h n (by omega))
      (pipeline_last t (n + 1) enc dec f room (by omega) todo got v (h (n + 1) (by omega)))

theorem pipeline_values (vs : List α) :
    ∀ got, (∀ v ∈ vs, ∀ k, k ≤ n → Hears t (enc k (through f k v)) (dec k) (through f k v)) →
    ∃ m, Talk t (pipeline n enc dec f room) m (pipelineAt n f vs got)
      (pipelineAt n f [] (got ++ vs)) := by
  induction vs with
  | nil => intro got _; exact ⟨0, by rw [List.append_nil]; exact .start⟩
  | cons v vs ih =>
    intro got h
    obtain ⟨m, hm⟩ := ih (got ++ [v]) fun w hw => h w (by simp [hw])
    rw [List.append_assoc, List.singleton_append] at hm
    exact ⟨_, (pipeline_value t n enc dec f room vs got v (h v (by simp))).trans hm⟩

/-- Program `k + 1` learns that program `k` has ended. -/
theorem pipeline_close (vs : List α) (k : Nat) (hk : k ≤ n) {e : DeErr}
    (h : Prog.run t (dec k) [] = .err e) :
    ValueStep t (pipeline n enc dec f room) (pipelineOver n f vs k) (pipelineOver n f vs (k + 1)) := by
  have h1 := ValueStep.closed (t := t) (net := pipeline n enc dec f room)
    (s := pipelineOver n f vs k) (c := k) (j := k + 1) (q := dec k) (heard := fun
        | .ok w => if k + 1 = n + 1 then .waits (vs.map (through f k) ++ [w])
          else .holds (vs.map (through f k) ++ [w]) (f (k + 1) w)
        | .error _ => .over (vs.map (through f k)))
    (by
      have : ¬ k + 1 ≤ k := by omega
      simp [pipelineOver, pipeline, hk, this]; funext x; cases x <;> rfl)
    (by
      show (pipeline n enc dec f room).act k (pipelineOver n f vs k k) = .stop
      by_cases k0 : k = 0 <;> simp [pipelineOver, pipeline, k0]) h
  refine cast ?_ h1
  congr 1
  funext i
  by_cases i0 : i = 0
  · simp [setAt, pipelineOver, i0]
  · by_cases i1 : i = k + 1
    · simp [setAt, pipelineOver, i1]
    · by_cases i2 : i ≤ k
      · have : i ≤ k + 1 := by omega
        simp [setAt, pipelineOver, i0, i1, i2, this]
      · have : ¬ i ≤ k + 1 := by omega
        simp [setAt, pipelineOver, i0, i1, i2, this]

theorem pipeline_over (vs : List α) (h : ∀ k, k ≤ n → ∃ e, Prog.run t (dec k) [] = .err e) :
    ∀ k, k ≤ n + 1 → Talk t (pipeline n enc dec f room) k (pipelineOver n f vs 0)
      (pipelineOver n f vs k)
  | 0, _ => .start
  | k + 1, hk => by
    obtain ⟨e, he⟩ := h k (by omega)
    exact .step (pipeline_over vs h k (by omega))
      (pipeline_close t n enc dec f room vs k (by omega) he)

end

end Dlhn.Props
