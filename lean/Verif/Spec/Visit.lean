import Verif.Model.VisitStd
/-!
# Specification: implementations of `Deserialize`

Independent of what the calls do: which implementations ask for something the
deserializer has no answer to, and what a visitor makes of the elements it is given.
-/
namespace Dlhn.Spec

mutual
/-- The implementation never calls `deserialize_any`, `deserialize_str`,
`deserialize_bytes` or `deserialize_ignored_any`. -/
def NoTodo : {α : Type} → Impl α → Prop
  | _, .any => False
  | _, .str => False
  | _, .bytes => False
  | _, .ignoredAny => False
  | _, .andThen p k => NoTodo p ∧ ∀ b, NoTodo (k b)
  | _, .humanReadable k => NoTodo (k false)
  | _, .option onNone onSome => NoTodo onNone ∧ NoTodo onSome
  | _, .newtypeStruct _ visit => NoTodo visit
  | _, .seq visit => ∀ n, SeqNoTodo (visit n)
  | _, .tuple len visit => SeqNoTodo (visit len)
  | _, .tupleStruct _ len visit => SeqNoTodo (visit len)
  | _, .map visit => ∀ n, MapNoTodo (visit n)
  | _, .struct _ fields visit => FieldsNoTodo visit fields
  | _, .enum _ _ seed visit => NoTodo seed ∧ ∀ b, VariantNoTodo (visit b)
  | _, _ => True
/-- The same for a `visit_seq`. -/
def SeqNoTodo : {α : Type} → SeqImpl α → Prop
  | _, .next seed k => NoTodo seed ∧ ∀ b, SeqNoTodo (k b)
  | _, _ => True
/-- The same for a `visit_map` of a map. -/
def MapNoTodo : {α : Type} → MapImpl α → Prop
  | _, .key seed k => NoTodo seed ∧ ∀ b, MapNoTodo (k b)
  | _, .value seed k => NoTodo seed ∧ ∀ b, MapNoTodo (k b)
  | _, _ => True
/-- The same for a `visit_map` of a struct that is given the names `fields`, one
after the other. -/
def FieldsNoTodo : {α : Type} → FieldsImpl α → (fields : List String) → Prop
  | _, .key k, [] => FieldsNoTodo (k none) []
  | _, .key k, name :: names => FieldsNoTodo (k (some name)) names
  | _, .value seed k, names => NoTodo seed ∧ ∀ b, FieldsNoTodo (k b) names
  | _, _, _ => True
/-- The same for the rest of a `visit_enum`. -/
def VariantNoTodo : {α : Type} → VariantImpl α → Prop
  | _, .newtype seed _ => NoTodo seed
  | _, .tuple len visit _ => SeqNoTodo (visit len)
  | _, .struct fields visit _ => FieldsNoTodo visit fields
  | _, _ => True
end

mutual
/-- No two fields of a struct or struct variant have the same name. -/
def DistinctFields : Ty → Prop
  | .option ty => DistinctFields ty
  | .newtypeStruct _ ty => DistinctFields ty
  | .seq ty => DistinctFields ty
  | .tuple ts => AllDistinct ts
  | .tupleStruct _ ts => AllDistinct ts
  | .map kt vt => DistinctFields kt ∧ DistinctFields vt
  | .struct _ fs => (fs.map (·.1)).Nodup ∧ FieldsDistinct fs
  | .enum _ vs => VariantsDistinct vs
  | _ => True
/-- In all members. -/
def AllDistinct : List Ty → Prop
  | [] => True
  | ty :: ts => DistinctFields ty ∧ AllDistinct ts
/-- In all fields. -/
def FieldsDistinct : List (String × Ty) → Prop
  | [] => True
  | (_, ty) :: fs => DistinctFields ty ∧ FieldsDistinct fs
/-- In all variants. -/
def VariantsDistinct : List (String × VTy) → Prop
  | [] => True
  | (_, vt) :: vs => PayloadDistinct vt ∧ VariantsDistinct vs
/-- In the payload. -/
def PayloadDistinct : VTy → Prop
  | .unit => True
  | .newtype ty => DistinctFields ty
  | .tuple ts => AllDistinct ts
  | .struct fs => (fs.map (·.1)).Nodup ∧ FieldsDistinct fs
end

/-! ## Visitors of one kind of element -/

/-- A visitor that asks for elements of one type, one at a time, and can stop,
fail or go on after each. -/
inductive Asker (β α : Type) where
  | ok (a : α)
  | error (e : DeErr)
  | next (k : Option β → Asker β α)

/-- What it makes of a list of elements (`None` after the last one, as often as it
asks), and the elements it did not ask for. -/
def Asker.feed {β α : Type} : Asker β α → List β → Except DeErr α × List β
  | .ok a, bs => (.ok a, bs)
  | .error e, bs => (.error e, bs)
  | .next k, [] => (k none).feed []
  | .next k, b :: bs => (k (some b)).feed bs

/-- It as a `visit_seq` with `next_element_seed(seed)`. -/
def Asker.visitSeq {β α : Type} (seed : Impl β) : Asker β α → SeqImpl α
  | .ok a => .ok a
  | .error e => .error e
  | .next k => .next seed fun b => (k b).visitSeq seed

/-- It as a `visit_map` with `next_entry_seed(key, value)`. -/
def Asker.visitMap {κ β α : Type} (key : Impl κ) (value : Impl β) : Asker (κ × β) α → MapImpl α
  | .ok a => .ok a
  | .error e => .error e
  | .next k => .key key fun
    | none => (k none).visitMap key value
    | some x => .value value fun y => (k (some (x, y))).visitMap key value

/-- It as a `visit_map` of a struct that only asks for keys. -/
def Asker.visitKeys {α : Type} : Asker String α → FieldsImpl α
  | .ok a => .ok a
  | .error e => .error e
  | .next k => .key fun b => (k b).visitKeys

end Dlhn.Spec
