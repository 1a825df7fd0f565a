import Verif.Model.Body
/-! # Specification: how deeply a dynamic value is nested -/
namespace Dlhn.Spec

mutual
/-- Nesting depth: 1 for a body without members. -/
def bodyDepth : Body → Nat
  | .some b => bodyDepth b + 1
  | .array bs => bodyDepthAll bs + 1
  | .tuple bs => bodyDepthAll bs + 1
  | .map es => bodyDepthEntries es + 1
  | .enum _ b => bodyDepth b + 1
  | _ => 1
/-- Depth of the deepest member. -/
def bodyDepthAll : List Body → Nat
  | [] => 0
  | b :: bs => max (bodyDepth b) (bodyDepthAll bs)
/-- Depth of the deepest value. -/
def bodyDepthEntries : List (String × Body) → Nat
  | [] => 0
  | (_, b) :: es => max (bodyDepth b) (bodyDepthEntries es)
end

end Dlhn.Spec
