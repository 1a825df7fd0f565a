import Verif.Model.AnyReader
import Verif.Model.Visit
/-!
# Specification: what decoded values are like

`Only t i P`: whatever the reader does, and whatever it did before, when decoding returns
`Ok(v)`, `v` is as `P` says.
-/
namespace Dlhn

/-- Every value the implementation returns satisfies `P`. -/
def Only (t : Target) {α : Type} (i : Impl α) (P : α → Prop) : Prop :=
  ∀ (σ : Type) (step : RStep σ) (s s' : σ) (cs : List ReadRes) (v : α),
    Runs step t (i.run t) s cs (.ok v) s' → P v

/-- The result of the conversion as the result of decoding. -/
def converted {α β : Type} (tryFrom : β → Except String α) : Outcome DeErr β → Outcome DeErr α
  | .ok b => match tryFrom b with
    | .ok a => .ok a
    | .error msg => .err (.message msg)
  | .err e => .err e
  | .panic q => .panic q

end Dlhn
