import Verif.Model.Adjacent
import Verif.Spec.Attrs
/-!
# Specification: adjacently tagged enums
-/
namespace Dlhn.Spec

/-- A value of a newtype or tuple variant. -/
def hasContent : Val → Bool
  | .newtypeVariant _ _ _ _ => true
  | .tupleVariant _ _ _ _ => true
  | _ => false

/-- Every variant is a newtype or tuple variant. -/
def AllContent (vs : List (String × VTy)) : Prop :=
  ∀ v ∈ vs, (∃ ty, v.2 = .newtype ty) ∨ ∃ ts, v.2 = .tuple ts

end Dlhn.Spec
