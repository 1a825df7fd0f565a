import Verif.Model.Serde
/-! # Specification: forgetting names and record structure -/
namespace Dlhn.Spec

mutual
/-- Forget the names of types, fields and variants; structs and tuple structs
become tuples, newtypes their content, unit structs unit. Map keys are kept: a
key must be a plain string, not a newtype around one. -/
def erase : Val → Val
  | .some v => .some (erase v)
  | .unitStruct _ => .unit
  | .unitVariant _ i _ => .unitVariant "" i ""
  | .newtypeStruct _ v => erase v
  | .newtypeVariant _ i _ v => .newtypeVariant "" i "" (erase v)
  | .seq h vs => .seq h (eraseAll vs)
  | .tuple vs => .tuple (eraseAll vs)
  | .tupleStruct _ vs => .tuple (eraseAll vs)
  | .tupleVariant _ i _ vs => .tupleVariant "" i "" (eraseAll vs)
  | .map h es => .map h (eraseEntries es)
  | .struct _ fs => .tuple (eraseFields fs)
  | .structVariant _ i _ fs => .tupleVariant "" i "" (eraseFields fs)
  | v => v
/-- Member-wise. -/
def eraseAll : List Val → List Val
  | [] => []
  | v :: vs => erase v :: eraseAll vs
/-- Values only. -/
def eraseEntries : List (Val × Val) → List (Val × Val)
  | [] => []
  | (k, v) :: es => (k, erase v) :: eraseEntries es
/-- Field values in order. -/
def eraseFields : List (String × Val) → List Val
  | [] => []
  | (_, v) :: fs => erase v :: eraseFields fs
end

end Dlhn.Spec
