import Verif.Proof.Pipeline
import Verif.Props.Network
import Verif.Props.Log
/-!
# C147: pipelines

Any number of programs in a row, each of which receives values from the one before and sends what
it makes of them to the next.
-/
namespace Dlhn.Props

open Spec hiding variantFields

variable {α : Type}

section
variable (t : Target) (n : Nat) (enc : Nat → α → WProg SerErr) (dec : Nat → Prog DeErr α)
  (f : Nat → α → α) (room : Nat → Option Nat)

/-- A pipeline of any number of programs, whatever goes through it, if each program hears what the
one before it sends, and notices the end: however the programs are scheduled, and however little
the pipes hold, each program receives all values, in their order, as the programs before it have
made them; all end, and they are never stuck. -/
theorem C147_pipeline (hr : ∀ c, HasRoom (room c) 1) (vs : List α)
    (hv : ∀ v ∈ vs, ∀ k, k ≤ n → Hears t (enc k (through f k v)) (dec k) (through f k v))
    (he : ∀ k, k ≤ n → ∃ e, Prog.run t (dec k) [] = .err e) :
    EndsIn (NetStep t (pipeline n enc dec f room)) (between (pipelineStart n vs))
      (between (pipelineEnd n f vs)) ∧
    ∀ late, EndsIn (PipeStep t (pipeline n enc dec f room) late) (between (pipelineStart n vs))
      (between (pipelineEnd n f vs)) := by
  obtain ⟨m, hm⟩ := pipeline_values t n enc dec f room vs [] hv
  have h2 := pipeline_over t n enc dec f room vs he (n + 1) (Nat.le_refl _)
  have e1 : pipelineAt n f vs [] = pipelineStart n vs := by
    funext i
    simp [pipelineAt, pipelineStart]
  have e2 : pipelineAt n f [] ([] ++ vs) = pipelineOver n f vs 0 := by
    funext i
    by_cases i0 : i = 0 <;> simp [pipelineAt, pipelineOver, i0]
  have e3 : pipelineOver n f vs (n + 1) = pipelineEnd n f vs := by
    funext i
    by_cases i0 : i = 0
    · simp [pipelineOver, pipelineEnd, i0]
    · by_cases i1 : i ≤ n + 1 <;> simp [pipelineOver, pipelineEnd, i0, i1]
  rw [e1, e2] at hm
  rw [e3] at h2
  refine C147_ends t _ (pipeline_wired n enc dec f room) hr _ _ _ (hm.trans h2) fun i => ?_
  by_cases i0 : i = 0
  · simp [pipelineEnd, i0, pipeline]
  · by_cases i1 : i ≤ n + 1 <;> simp [pipelineEnd, i0, i1, pipeline]

end

/-- Values of the supported types, of a type of its own for each pipe. (A client that sends requests
from one thread and receives the answers in another, and the server, are a pipeline with `n = 1`.) -/
theorem C147_pipeline_typed (t : Target) (hm : 4096 ≤ t.memLimit) (n : Nat) (ty : Nat → Ty)
    (hty : ∀ k, k ≤ n → Supported (ty k) ∧ 0 < minSize (ty k)) (f : Nat → Val → Val)
    (hf : ∀ k v, k < n → Has t (ty k) v → Has t (ty (k + 1)) (f (k + 1) v))
    (room : Nat → Option Nat) (hr : ∀ c, HasRoom (room c) 1) (vs : List Val)
    (hv : ∀ v ∈ vs, Has t (ty 0) v) :
    EndsIn (NetStep t (pipeline n (fun _ => Ser.ser) (fun k => De.de t (ty k)) f room))
      (between (pipelineStart n vs)) (between (pipelineEnd n f vs)) ∧
    ∀ late, EndsIn (PipeStep t (pipeline n (fun _ => Ser.ser) (fun k => De.de t (ty k)) f room) late)
      (between (pipelineStart n vs)) (between (pipelineEnd n f vs)) := by
  have hh : ∀ v, Has t (ty 0) v → ∀ k, k ≤ n → Has t (ty k) (through f k v) := by
    intro v hv k
    induction k with
    | zero => exact fun _ => hv
    | succ k ih => exact fun hk => hf k _ hk (ih (by omega))
  exact C147_pipeline t n _ _ f room hr vs (fun v h k hk =>
    C147_typed t hm (ty k) (hty k hk).1 _ (hh v (hv v h) k hk)) fun k hk =>
      C103_short t hm (ty k) (hty k hk).1 .eof [] (hty k hk).2

/-- Dynamic values, of a header of its own for each pipe. -/
theorem C147_pipeline_bodies (t : Target) (hm : 4096 ≤ t.memLimit) (mode : BuildMode) (size n : Nat)
    (h : Nat → Header) (hend : ∀ k, k ≤ n → ∃ e, Prog.run t (Body.de t mode size (h k)) [] = .err e)
    (f : Nat → Body → Body) (room : Nat → Option Nat) (hr : ∀ c, HasRoom (room c) 1)
    (vs : List Body) (hv : ∀ v ∈ vs, ∀ k, k ≤ n → Body.validate (h k) (through f k v) = true ∧
      Spec.Exists t (through f k v) ∧ CleanDecimals (through f k v) ∧
      DatesFit mode (through f k v) ∧ VectorsFit t size (through f k v)) :
    EndsIn (NetStep t (pipeline n (fun _ => Body.ser mode) (fun k => Body.de t mode size (h k)) f
        room)) (between (pipelineStart n vs)) (between (pipelineEnd n f vs)) ∧
    ∀ late, EndsIn (PipeStep t (pipeline n (fun _ => Body.ser mode)
        (fun k => Body.de t mode size (h k)) f room) late)
      (between (pipelineStart n vs)) (between (pipelineEnd n f vs)) :=
  C147_pipeline t n _ _ f room hr vs (fun v hx k hk =>
    have hb := hv v hx k hk
    C147_bodies t hm mode size (h k) _ hb.1 hb.2.1 hb.2.2.1 hb.2.2.2.1 hb.2.2.2.2) hend

/-- Numbers, text, truth values. -/
def stageTy : Nat → Ty
  | 0 => .u64
  | 1 => .string
  | _ => .bool

/-- What two programs make of them. -/
def stageStep : Nat → Val → Val
  | 1, .u64 n => .str (if n = 0 then "none" else "some")
  | _, .str s => .bool (s == "none")
  | _, v => v

/-- Two programs between the first and the last, through pipes of one byte. -/
example (t : Target) (hm : 4096 ≤ t.memLimit) :
    EndsIn (NetStep t (pipeline 2 (fun _ => Ser.ser) (fun k => De.de t (stageTy k)) stageStep
        fun _ => some 1))
      (between (pipelineStart 2 [.u64 0, .u64 300]))
      (between fun i => match i with
        | 0 => .sends []
        | 1 => .over [.u64 0, .u64 300]
        | 2 => .over [.str "none", .str "some"]
        | 3 => .over [.bool true, .bool false]
        | _ => .over []) := by
  have h := (C147_pipeline_typed t hm 2 stageTy (fun k hk => by
      match k, hk with
      | 0, _ => exact ⟨trivial, by simp [stageTy, minSize]⟩
      | 1, _ => exact ⟨trivial, by simp [stageTy, minSize]⟩
      | 2, _ => exact ⟨trivial, by simp [stageTy, minSize]⟩) stageStep (fun k v hk hv => by
      match k, hk with
      | 0, _ =>
        obtain ⟨n, rfl⟩ := hv
        by_cases hn : n = 0
        · exact ⟨"none", by simp [stageStep, hn], by cases t.ptr <;> decide⟩
        · exact ⟨"some", by simp [stageStep, hn], by cases t.ptr <;> decide⟩
      | 1, _ =>
        obtain ⟨s, rfl, -⟩ := hv
        exact ⟨_, rfl⟩) (fun _ => some 1) (fun _ _ h => by cases h; exact Nat.le_refl _)
      [.u64 0, .u64 300] (by simp [stageTy, Has])).1
  refine cast ?_ h
  congr 2
  funext i
  match i with
  | 0 => rfl
  | 1 => rfl
  | 2 => rfl
  | 3 => rfl
  | i + 4 => simp [pipelineEnd]

end Dlhn.Props
