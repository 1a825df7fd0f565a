import Verif.Model.AnyReader
import Verif.Model.AnyWriter
/-!
# What it means that a build or a machine decides whether there is a result, not which

Two decoders `p` and `p'` on targets `t` and `t'` are compared on every reader: `p` does what
`p'` does, except that it may panic, for one of the reasons in `Q`, where `p'` goes on.
-/
namespace Dlhn.Spec

/-- On any reader whatsoever, `p` on `t` does what `p'` on `t'` does: the same calls of
`read`, the same outcome, the reader left in the same state; except that it may panic for
one of the reasons in `Q`, after the first of the same calls. -/
def DoesOrPanics {ε α : Type} (Q : PanicKind → Prop) (t t' : Target) (p p' : Prog ε α) : Prop :=
  ∀ (σ : Type) (step : RStep σ) (s : σ) (cs : List ReadRes) (o : Outcome ε α) (s' : σ),
    (Runs step t p s cs o s' → (∃ q, Q q ∧ o = .panic q) ∨ Runs step t' p' s cs o s') ∧
    (Runs step t' p' s cs o s' → Runs step t p s cs o s' ∨
      ∃ q cs₁ s₁, Q q ∧ cs₁ <+: cs ∧ Runs step t p s cs₁ (.panic q) s₁)

/-- The same for two encoders on any writer whatsoever. -/
def WritesOrPanics {ε : Type} (Q : PanicKind → Prop) (p p' : WProg ε) : Prop :=
  ∀ (σ : Type) (step : WStep σ) (s : σ) (cs : List WCall) (o : Outcome ε Unit) (s' : σ),
    (WRuns step p s cs o s' → (∃ q, Q q ∧ o = .panic q) ∨ WRuns step p' s cs o s') ∧
    (WRuns step p' s cs o s' → WRuns step p s cs o s' ∨
      ∃ q cs₁ s₁, Q q ∧ cs₁ <+: cs ∧ WRuns step p s cs₁ (.panic q) s₁)

/-- The panics of a program for lack of memory. -/
def OutOfMemory (q : PanicKind) : Prop := q = .capacityOverflow ∨ q = .allocFailure

/-- The panics of a program that a smaller or more careful machine may add: overflow checks,
memory, stack. -/
def OutOfBounds (q : PanicKind) : Prop :=
  q = .overflow ∨ q = .capacityOverflow ∨ q = .allocFailure ∨ q = .stackOverflow

end Dlhn.Spec
