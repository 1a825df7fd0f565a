import Verif.Model.Serde
/-! # Specification: types without text -/
namespace Dlhn.Spec

mutual
/-- The type contains no `String` and no `char`. -/
def NoText : Ty → Prop
  | .string => False
  | .char => False
  | .option ty => NoText ty
  | .newtypeStruct _ ty => NoText ty
  | .seq ty => NoText ty
  | .tuple ts => AllNoText ts
  | .tupleStruct _ ts => AllNoText ts
  | .map kt vt => NoText kt ∧ NoText vt
  | .struct _ fs => FieldsNoText fs
  | .enum _ vs => VariantsNoText vs
  | _ => True
/-- No member contains text. -/
def AllNoText : List Ty → Prop
  | [] => True
  | ty :: ts => NoText ty ∧ AllNoText ts
/-- No field contains text. -/
def FieldsNoText : List (String × Ty) → Prop
  | [] => True
  | (_, ty) :: fs => NoText ty ∧ FieldsNoText fs
/-- No variant contains text. -/
def VariantsNoText : List (String × VTy) → Prop
  | [] => True
  | (_, vt) :: vs => PayloadNoText vt ∧ VariantsNoText vs
/-- The payload contains no text. -/
def PayloadNoText : VTy → Prop
  | .unit => True
  | .newtype ty => NoText ty
  | .tuple ts => AllNoText ts
  | .struct fs => FieldsNoText fs
end

/-- The number of bytes read for an announced number `n` of bytes where numbers of bytes have
`bits` bits: `n`, if it is one; else the lowest bits of `n`, rounded up to whole buffers of
4096. -/
def bufferBytes (bits n : Nat) : Nat :=
  if n < 2 ^ bits then n else (n % 2 ^ bits + 4095) / 4096 * 4096

end Dlhn.Spec
