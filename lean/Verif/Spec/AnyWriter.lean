import Verif.Model.AnyWriter
/-!
# Specification: the calls of `write`
-/
namespace Dlhn

/-- The bytes a writer has accepted in these calls. -/
def accepted : List WCall → List UInt8
  | [] => []
  | (bs, .ok n) :: cs => bs.take n ++ accepted cs
  | (_, .interrupted) :: cs => accepted cs
  | (_, .fail _) :: cs => accepted cs

/-- The error an answer stands for: `Ok(0)` is `WriteZero`. -/
def WriteRes.refusal : WriteRes → Option IoErr
  | .ok 0 => some .writeZero
  | .ok (_ + 1) => none
  | .interrupted => none
  | .fail e => some e

/-- The step of a script (Model/Writer.lean) that gives this answer. -/
def WriteRes.event : WriteRes → WEvent
  | .ok n => .accept n
  | .interrupted => .interrupted
  | .fail e => .fail e

/-- A writer that always answers, and is not interrupted again and again without end. -/
structure WStep.Live {σ : Type} (step : WStep σ) : Prop where
  answers : ∀ s bs, bs ≠ [] → ∃ r s', step s bs r s'
  calm : ∃ patience : σ → Nat, ∀ s bs s', step s bs .interrupted s' → patience s' < patience s

/-- The calls `cs` and the outcome `o` of serializing what a `Vec` would hold as `want.1`, with
the outcome `want.2`. Every call offers the writer bytes that follow, in the data, those it has
accepted before. And either all of the data have been accepted and the outcome is that on
a `Vec`, no call having been refused; or the last call was refused, and it alone, the outcome is
the error made of this, and only a part of the data has been accepted. -/
def Delivered {ε : Type} (onErr : IoErr → ε) (want : List UInt8 × Outcome ε Unit)
    (cs : List WCall) (o : Outcome ε Unit) : Prop :=
  (∀ cs₁ bs r cs₂, cs = cs₁ ++ (bs, r) :: cs₂ → bs ≠ [] ∧ accepted cs₁ ++ bs <+: want.1) ∧
  ((accepted cs = want.1 ∧ o = want.2 ∧ ∀ c ∈ cs, c.2.refusal = none) ∨
    ∃ cs₁ bs r e, cs = cs₁ ++ [(bs, r)] ∧ (∀ c ∈ cs₁, c.2.refusal = none) ∧
      r.refusal = some e ∧ o = .err (onErr e) ∧
      accepted cs <+: want.1 ∧ accepted cs ≠ want.1)

end Dlhn
