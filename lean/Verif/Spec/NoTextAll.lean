import Verif.Spec.NoText
import Verif.Spec.Body
import Verif.Spec.DeriveDe
import Verif.Spec.Visit
import Verif.Model.Rec
/-!
# Specification: headers, derived types, implementations and recursive types without text
-/
namespace Dlhn.Spec

/-- Bodies of the header hold no text: there is no string and no map, whose keys are
strings. -/
def NoTextHeader (h : Header) : Prop :=
  .string ∉ headerParts h ∧ ∀ h', .map h' ∉ headerParts h

/-- Nothing that is read for the type is text. -/
def NoTextDerived (T : RTy) : Prop :=
  .string ∉ readParts T ∧ ∀ U, .btreeMap U ∉ readParts T ∧ .hashMap U ∉ readParts T

mutual
/-- The implementation never calls `deserialize_string` or `deserialize_char`. -/
def NoTextImpl : {α : Type} → Impl α → Prop
  | _, .string => False
  | _, .char => False
  | _, .andThen p k => NoTextImpl p ∧ ∀ b, NoTextImpl (k b)
  | _, .humanReadable k => NoTextImpl (k false)
  | _, .option onNone onSome => NoTextImpl onNone ∧ NoTextImpl onSome
  | _, .newtypeStruct _ visit => NoTextImpl visit
  | _, .seq visit => ∀ n, SeqNoText (visit n)
  | _, .tuple len visit => SeqNoText (visit len)
  | _, .tupleStruct _ len visit => SeqNoText (visit len)
  | _, .map visit => ∀ n, MapNoText (visit n)
  | _, .struct _ fields visit => KeysNoText visit fields
  | _, .enum _ _ seed visit => NoTextImpl seed ∧ ∀ b, VariantNoText (visit b)
  | _, _ => True
/-- The same for a `visit_seq`. -/
def SeqNoText : {α : Type} → SeqImpl α → Prop
  | _, .next seed k => NoTextImpl seed ∧ ∀ b, SeqNoText (k b)
  | _, _ => True
/-- The same for a `visit_map` of a map. -/
def MapNoText : {α : Type} → MapImpl α → Prop
  | _, .key seed k => NoTextImpl seed ∧ ∀ b, MapNoText (k b)
  | _, .value seed k => NoTextImpl seed ∧ ∀ b, MapNoText (k b)
  | _, _ => True
/-- The same for a `visit_map` of a struct that is given the names `fields`, one
after the other. -/
def KeysNoText : {α : Type} → FieldsImpl α → (fields : List String) → Prop
  | _, .key k, [] => KeysNoText (k none) []
  | _, .key k, name :: names => KeysNoText (k (some name)) names
  | _, .value seed k, names => NoTextImpl seed ∧ ∀ b, KeysNoText (k b) names
  | _, _, _ => True
/-- The same for the rest of a `visit_enum`. -/
def VariantNoText : {α : Type} → VariantImpl α → Prop
  | _, .newtype seed _ => NoTextImpl seed
  | _, .tuple len visit _ => SeqNoText (visit len)
  | _, .struct fields visit _ => KeysNoText visit fields
  | _, _ => True
end

mutual
/-- No text is mentioned by the definition (it may be by those it names). -/
def NoTextRec : Rec.RecTy → Prop
  | .leaf ty => NoText ty
  | .named _ => True
  | .option T => NoTextRec T
  | .newtypeStruct _ T => NoTextRec T
  | .seq T => NoTextRec T
  | .tuple Ts => AllNoTextRec Ts
  | .tupleStruct _ Ts => AllNoTextRec Ts
  | .map kt T => NoText kt ∧ NoTextRec T
  | .struct _ fs => FieldsNoTextRec fs
  | .enum _ vs => VariantsNoTextRec vs
/-- By none of them. -/
def AllNoTextRec : List Rec.RecTy → Prop
  | [] => True
  | T :: Ts => NoTextRec T ∧ AllNoTextRec Ts
/-- By no field. -/
def FieldsNoTextRec : List (String × Rec.RecTy) → Prop
  | [] => True
  | (_, T) :: fs => NoTextRec T ∧ FieldsNoTextRec fs
/-- By no variant. -/
def VariantsNoTextRec : List (String × Rec.RecVTy) → Prop
  | [] => True
  | (_, vt) :: vs => PayloadNoTextRec vt ∧ VariantsNoTextRec vs
/-- Not by the payload. -/
def PayloadNoTextRec : Rec.RecVTy → Prop
  | .unit => True
  | .newtype T => NoTextRec T
  | .tuple Ts => AllNoTextRec Ts
  | .struct fs => FieldsNoTextRec fs
end

end Dlhn.Spec
