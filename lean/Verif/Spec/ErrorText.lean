import Verif.Model.De
import Verif.Spec.Errors
import Verif.Spec.Varint
/-!
# Specification: what errors say

The text of an error is what `to_string` gives for it. An error about an index that no variant of
an enum has names the index and the number of variants.
-/
namespace Dlhn.Spec

/-- The text about the index `i` where there are `n` variants. -/
def unknownIndexText (i n : Nat) : String :=
  "invalid value: integer `" ++ toString i ++ "`, expected variant index 0 <= i < " ++ toString n

/-- The text about a calendar date or time out of range. -/
def badDateText : String := "invalid value: sequence, expected Read error"

mutual
/-- A type and the types of everything inside it. -/
def innerTypes : Ty → List Ty
  | .option ty => .option ty :: innerTypes ty
  | .newtypeStruct n ty => .newtypeStruct n ty :: innerTypes ty
  | .seq ty => .seq ty :: innerTypes ty
  | .tuple ts => .tuple ts :: innerTypesAll ts
  | .tupleStruct n ts => .tupleStruct n ts :: innerTypesAll ts
  | .map kt vt => .map kt vt :: (innerTypes kt ++ innerTypes vt)
  | .struct n fs => .struct n fs :: innerTypesFields fs
  | .enum n vs => .enum n vs :: innerTypesVariants vs
  | ty => [ty]
/-- Of all members. -/
def innerTypesAll : List Ty → List Ty
  | [] => []
  | ty :: ts => innerTypes ty ++ innerTypesAll ts
/-- Of all fields. -/
def innerTypesFields : List (String × Ty) → List Ty
  | [] => []
  | (_, ty) :: fs => innerTypes ty ++ innerTypesFields fs
/-- Of all variants. -/
def innerTypesVariants : List (String × VTy) → List Ty
  | [] => []
  | (_, vt) :: vs => innerTypesPayload vt ++ innerTypesVariants vs
/-- Of the payload of a variant. -/
def innerTypesPayload : VTy → List Ty
  | .unit => []
  | .newtype ty => innerTypes ty
  | .tuple ts => innerTypesAll ts
  | .struct fs => innerTypesFields fs
end

/-- From some place in the data the text is right: there the data have the index it names, which
none of the variants of one of the enums with as many variants as it says has. -/
def NamesIndex (count : Nat → Prop) (text : String) (bs : List UInt8) : Prop :=
  ∃ k i n rest, varintDecode 16 (bs.drop k) = some (i, rest) ∧ count n ∧ n ≤ i ∧
    text = unknownIndexText i n

/-- Rust compiles the type with `#[derive(Deserialize)]`: everything read has an implementation, and
the fields that are skipped have defaults. -/
def CompilesDe (env : Derive.Env) (T : RTy) : Prop :=
  ∀ U ∈ readParts T, DefaultedPart env U ∧ U ≠ .foreign ∧ ∀ name, U ≠ .union name

end Dlhn.Spec
