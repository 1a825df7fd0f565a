import Verif.Spec.Body
/-!
# Specification: how many bytes the values of a type take

Computed from the type alone. An upper bound of `none` is no bound.
-/
namespace Dlhn.Spec

/-- The sum of two bounds. -/
def addBound : Option Nat → Option Nat → Option Nat
  | some a, some b => some (a + b)
  | _, _ => none

/-- The larger of two bounds. -/
def maxBound : Option Nat → Option Nat → Option Nat
  | some a, some b => some (max a b)
  | _, _ => none

/-- The bytes of the largest element count there can be. -/
def maxCount (t : Target) : Nat :=
  match t.ptr with
  | .w32 => 5
  | .w64 => 9

/-! ## Types -/

mutual
/-- The bytes of the shortest value. -/
def minSize : Ty → Nat
  | .f32 => 4
  | .f64 => 8
  | .char => 2
  | .unit => 0
  | .unitStruct _ => 0
  | .newtypeStruct _ ty => minSize ty
  | .tuple ts => minSizeAll ts
  | .tupleStruct _ ts => minSizeAll ts
  | .struct _ fs => minSizeFields fs
  | .enum _ vs => minSizeVariants 0 vs
  | _ => 1
/-- Sum over the members. -/
def minSizeAll : List Ty → Nat
  | [] => 0
  | ty :: ts => minSize ty + minSizeAll ts
/-- Sum over the fields. -/
def minSizeFields : List (String × Ty) → Nat
  | [] => 0
  | (_, ty) :: fs => minSize ty + minSizeFields fs
/-- The shortest variant, with its index; the first has index `k`. -/
def minSizeVariants : Nat → List (String × VTy) → Nat
  | _, [] => 0
  | k, [(_, vt)] => (varint 32 k).length + minSizePayload vt
  | k, (_, vt) :: v :: vs =>
    min ((varint 32 k).length + minSizePayload vt) (minSizeVariants (k + 1) (v :: vs))
/-- The fields of a variant. -/
def minSizePayload : VTy → Nat
  | .unit => 0
  | .newtype ty => minSize ty
  | .tuple ts => minSizeAll ts
  | .struct fs => minSizeFields fs
end

mutual
/-- The bytes of the longest value, if there is one. -/
def maxSize (t : Target) : Ty → Option Nat
  | .bool => some 1
  | .i8 => some 1
  | .u8 => some 1
  | .i16 => some 3
  | .u16 => some 3
  | .i32 => some 5
  | .u32 => some 5
  | .i64 => some 9
  | .u64 => some 9
  | .f32 => some 4
  | .f64 => some 8
  | .char => some 5
  | .unit => some 0
  | .unitStruct _ => some 0
  | .option ty => addBound (some 1) (maxSize t ty)
  | .newtypeStruct _ ty => maxSize t ty
  -- elements that take no space
  | .seq ty => if maxSize t ty = some 0 then some (maxCount t) else none
  | .tuple ts => maxSizeAll t ts
  | .tupleStruct _ ts => maxSizeAll t ts
  | .struct _ fs => maxSizeFields t fs
  | .enum _ vs => maxSizeVariants t 0 vs
  | _ => none
/-- Sum over the members. -/
def maxSizeAll (t : Target) : List Ty → Option Nat
  | [] => some 0
  | ty :: ts => addBound (maxSize t ty) (maxSizeAll t ts)
/-- Sum over the fields. -/
def maxSizeFields (t : Target) : List (String × Ty) → Option Nat
  | [] => some 0
  | (_, ty) :: fs => addBound (maxSize t ty) (maxSizeFields t fs)
/-- The longest variant, with its index; the first has index `k`. -/
def maxSizeVariants (t : Target) : Nat → List (String × VTy) → Option Nat
  | _, [] => some 0
  | k, (_, vt) :: vs =>
    maxBound (addBound (some (varint 32 k).length) (maxSizePayload t vt))
      (maxSizeVariants t (k + 1) vs)
/-- The fields of a variant. -/
def maxSizePayload (t : Target) : VTy → Option Nat
  | .unit => some 0
  | .newtype ty => maxSize t ty
  | .tuple ts => maxSizeAll t ts
  | .struct fs => maxSizeFields t fs
end

mutual
/-- No enum inside is without variants, so that the type and its parts have values. -/
def Populated : Ty → Prop
  | .option ty => Populated ty
  | .newtypeStruct _ ty => Populated ty
  | .seq ty => Populated ty
  | .tuple ts => AllPopulated ts
  | .tupleStruct _ ts => AllPopulated ts
  | .map kt vt => Populated kt ∧ Populated vt
  | .struct _ fs => FieldsPopulated fs
  | .enum _ vs => vs ≠ [] ∧ VariantsPopulated vs
  | _ => True
/-- All members are. -/
def AllPopulated : List Ty → Prop
  | [] => True
  | ty :: ts => Populated ty ∧ AllPopulated ts
/-- All fields are. -/
def FieldsPopulated : List (String × Ty) → Prop
  | [] => True
  | (_, ty) :: fs => Populated ty ∧ FieldsPopulated fs
/-- All variants are. -/
def VariantsPopulated : List (String × VTy) → Prop
  | [] => True
  | (_, vt) :: vs => PayloadPopulated vt ∧ VariantsPopulated vs
/-- The payload is. -/
def PayloadPopulated : VTy → Prop
  | .unit => True
  | .newtype ty => Populated ty
  | .tuple ts => AllPopulated ts
  | .struct fs => FieldsPopulated fs
end

/-! ## Headers -/

mutual
/-- The bytes of the shortest body. -/
def minBody : Header → Nat
  | .unit => 0
  | .float32 => 4
  | .float64 => 8
  | .tuple hs => minBodies hs
  | .enum hs => minVariant 0 hs
  | .date => 2
  | .dateTime => 2
  | _ => 1
/-- Sum over the members. -/
def minBodies : List Header → Nat
  | [] => 0
  | h :: hs => minBody h + minBodies hs
/-- The shortest variant, with its index; the first has index `k`. -/
def minVariant : Nat → List Header → Nat
  | _, [] => 0
  | k, [h] => (varint 32 k).length + minBody h
  | k, h :: h' :: hs => min ((varint 32 k).length + minBody h) (minVariant (k + 1) (h' :: hs))
end

mutual
/-- The bytes of the longest body, if there is one. -/
def maxBody (t : Target) : Header → Option Nat
  | .unit => some 0
  | .optional h => addBound (some 1) (maxBody t h)
  | .boolean => some 1
  | .uint8 => some 1
  | .int8 => some 1
  | .uint16 => some 3
  | .int16 => some 3
  | .uint32 => some 5
  | .int32 => some 5
  | .uint64 => some 9
  | .int64 => some 9
  | .float32 => some 4
  | .float64 => some 8
  -- elements that take no space
  | .array h => if maxBody t h = some 0 then some (maxCount t) else none
  | .tuple hs => maxBodies t hs
  | .enum hs => maxVariant t 0 hs
  | .date => some 8
  | .dateTime => some 14
  | _ => none
/-- Sum over the members. -/
def maxBodies (t : Target) : List Header → Option Nat
  | [] => some 0
  | h :: hs => addBound (maxBody t h) (maxBodies t hs)
/-- The longest variant, with its index; the first has index `k`. -/
def maxVariant (t : Target) : Nat → List Header → Option Nat
  | _, [] => some 0
  | k, h :: hs =>
    maxBound (addBound (some (varint 32 k).length) (maxBody t h)) (maxVariant t (k + 1) hs)
end

/-- No enum inside is without variants, or has more than can be numbered. -/
def PopulatedHeader (h : Header) : Prop :=
  ∀ hs, .enum hs ∈ headerParts h → hs ≠ [] ∧ hs.length ≤ 2 ^ 32

end Dlhn.Spec
