import Verif.Model.Attrs
import Verif.Spec.Wire
/-!
# Specification: serde attributes
-/
namespace Dlhn.Spec

/-- No name or alias of a field is the name of another one. -/
def KeysApart (fs : List AField) : Prop :=
  fs.Pairwise fun f g => ¬ f.answers g.name ∧ ¬ g.answers f.name

/-- The same fields without attributes. -/
def plainFields (fs : List AField) : List (String × Ty) := fs.map fun f => (f.name, f.ty)

/-- The encoding of the fields of an enum value, without the index of the variant. -/
def payloadWire : Val → List UInt8
  | .newtypeVariant _ _ _ v => wire v
  | .tupleVariant _ _ _ vs => wireAll vs
  | .structVariant _ _ _ fs => wireFields fs
  | _ => []

/-- The value of the enum `name`. -/
def variantOf : Val → Option (UInt32 × String)
  | .unitVariant _ i vn => some (i, vn)
  | .newtypeVariant _ i vn _ => some (i, vn)
  | .tupleVariant _ i vn _ => some (i, vn)
  | .structVariant _ i vn _ => some (i, vn)
  | _ => none

end Dlhn.Spec
