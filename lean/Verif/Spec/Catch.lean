import Verif.Model.Catch
import Verif.Spec.Visit
import Verif.Spec.After
/-!
# Specification: implementations that catch errors
-/
namespace Dlhn.Spec

/-- The boolean a byte stands for. -/
def boolOf (b : UInt8) : Option Bool :=
  if b = 0 then some false else if b = 1 then some true else none

mutual
/-- The implementation never calls `deserialize_any`, `deserialize_str`,
`deserialize_bytes` or `deserialize_ignored_any`. -/
def CatchNoTodo : {α : Type} → CatchImpl α → Prop
  | _, .plain i => NoTodo i
  | _, .andThen p k => CatchNoTodo p ∧ ∀ b, CatchNoTodo (k b)
  | _, .option onNone onSome => CatchNoTodo onNone ∧ CatchNoTodo onSome
  | _, .newtypeStruct _ visit => CatchNoTodo visit
  | _, .seq visit => ∀ n, CatchSeqNoTodo (visit n)
  | _, .tuple len visit => CatchSeqNoTodo (visit len)
  | _, .tupleStruct _ len visit => CatchSeqNoTodo (visit len)
  | _, .map visit => ∀ n, CatchMapNoTodo (visit n)
  | _, .struct _ _ visit => CatchFieldsNoTodo visit
  | _, .enum _ _ seed visit _ => CatchNoTodo seed ∧ ∀ b, CatchVariantNoTodo (visit b)
  | _, _ => True
/-- The same for a `visit_seq`. -/
def CatchSeqNoTodo : {α : Type} → CatchSeq α → Prop
  | _, .next seed k => CatchNoTodo seed ∧ ∀ b, CatchSeqNoTodo (k b)
  | _, _ => True
/-- The same for a `visit_map` of a map. -/
def CatchMapNoTodo : {α : Type} → CatchMap α → Prop
  | _, .key seed k => CatchNoTodo seed ∧ ∀ b, CatchMapNoTodo (k b)
  | _, .value seed k => CatchNoTodo seed ∧ ∀ b, CatchMapNoTodo (k b)
  | _, _ => True
/-- The same for a `visit_map` of a struct. -/
def CatchFieldsNoTodo : {α : Type} → CatchFields α → Prop
  | _, .key k => ∀ name, CatchFieldsNoTodo (k name)
  | _, .value seed k => CatchNoTodo seed ∧ ∀ b, CatchFieldsNoTodo (k b)
  | _, _ => True
/-- The same for the rest of a `visit_enum`. -/
def CatchVariantNoTodo : {α : Type} → CatchVariant α → Prop
  | _, .newtype seed _ => CatchNoTodo seed
  | _, .tuple len visit _ => CatchSeqNoTodo (visit len)
  | _, .struct _ visit _ => CatchFieldsNoTodo visit
  | _, _ => True
end

mutual
/-- An implementation that passes errors on, written as one that could catch them:
every call is followed by `?`. -/
def passing : {α : Type} → Impl α → CatchImpl α
  | _, .ok a => .ok a
  | _, .error e => .error e
  | _, .andThen p k => .andThen (passing p) fun
    | .ok b => passing (k b)
    | .error e => .error e
  | _, .option onNone onSome => .option (passing onNone) (passing onSome)
  | _, .newtypeStruct name visit => .newtypeStruct name (passing visit)
  | _, .seq visit => .seq fun n => passingSeq (visit n)
  | _, .tuple len visit => .tuple len fun n => passingSeq (visit n)
  | _, .tupleStruct name len visit => .tupleStruct name len fun n => passingSeq (visit n)
  | _, .map visit => .map fun n => passingMap (visit n)
  | _, .struct name fields visit => .struct name fields (passingFields visit)
  | _, .enum name variants seed visit =>
    .enum name variants (passing seed) (fun b => passingVariant (visit b)) .error
  | _, i => .plain i
/-- The same for a `visit_seq`. -/
def passingSeq : {α : Type} → SeqImpl α → CatchSeq α
  | _, .ok a => .ok a
  | _, .error e => .error e
  | _, .next seed k => .next (passing seed) fun
    | .ok b => passingSeq (k b)
    | .error e => .error e
/-- The same for a `visit_map` of a map. -/
def passingMap : {α : Type} → MapImpl α → CatchMap α
  | _, .ok a => .ok a
  | _, .error e => .error e
  | _, .key seed k => .key (passing seed) fun
    | .ok b => passingMap (k b)
    | .error e => .error e
  | _, .value seed k => .value (passing seed) fun
    | .ok b => passingMap (k b)
    | .error e => .error e
/-- The same for a `visit_map` of a struct. -/
def passingFields : {α : Type} → FieldsImpl α → CatchFields α
  | _, .ok a => .ok a
  | _, .error e => .error e
  | _, .key k => .key fun name => passingFields (k name)
  | _, .value seed k => .value (passing seed) fun
    | .ok b => passingFields (k b)
    | .error e => .error e
/-- The same for the rest of a `visit_enum`. -/
def passingVariant : {α : Type} → VariantImpl α → CatchVariant α
  | _, .ok a => .ok a
  | _, .error e => .error e
  | _, .unit r => .unit r
  | _, .newtype seed k => .newtype (passing seed) fun
    | .ok b => k b
    | .error e => .error e
  | _, .tuple len visit k => .tuple len (fun n => passingSeq (visit n)) fun
    | .ok b => k b
    | .error e => .error e
  | _, .struct fields visit k => .struct fields (passingFields visit) fun
    | .ok b => k b
    | .error e => .error e
end

end Dlhn.Spec
