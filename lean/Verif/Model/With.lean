import Verif.Model.Convert
/-!
# Types whose parts have code of their own

`#[serde(with = "m")]`, `serialize_with` and `deserialize_with` on fields make serde_derive (not
part of /repo) call the functions named instead of the implementations of the field's type. The
generated code is otherwise the same: the field is wrapped in a type whose `Serialize` and
`Deserialize` call the function. So here are the generated implementations of structs, tuples,
enums and the ones serde provides for maps and vectors, over arbitrary parts: a part is a `SerImpl`
for its value and an `Impl β`. `β` is a type all parts are taken to (the sum of their types). Names
of types are arbitrary; the texts of errors are abbreviated. With `with` on a whole variant the
generated code presents it as a newtype variant whose value is written and read by the functions,
so it is an `OwnParts.newtype`, or `OwnBody.newtype`, too.
-/
namespace Dlhn

/-! ## Writing -/

/-- `serialize_element(..)?` for each, `end()`: `SerializeSeq` and `SerializeTuple`,
dlhn/src/ser.rs:268-334. -/
def partsSer : List SerImpl → SeqSer
  | [] => .finish
  | p :: ps => .element p fun
    | none => partsSer ps
    | some e => .error e

/-- `serialize_field(name, ..)?` for each, `end()`, dlhn/src/ser.rs:360-397. -/
def fieldsSer : List (String × SerImpl) → StructSer
  | [] => .finish
  | (n, p) :: fs => .field n p fun
    | none => fieldsSer fs
    | some e => .error e

/-- `serialize_entry(..)?` for each, `end()`, dlhn/src/ser.rs:336-358. -/
def entriesSer : List (SerImpl × SerImpl) → MapSer
  | [] => .finish
  | (k, v) :: es => .key k fun
    | none => .value v fun
      | none => entriesSer es
      | some e => .error e
    | some e => .error e

/-- The parts of a variant. -/
inductive OwnParts where
  | unit
  | newtype (p : SerImpl)
  | tuple (ps : List SerImpl)
  | struct (fs : List (String × SerImpl))

/-- The arm of the generated `match self` for the variant with index `i`. -/
def ownVariantSer (name : String) (i : UInt32) (variant : String) : OwnParts → SerImpl
  | .unit => .unitVariant name i variant
  | .newtype p => .newtypeVariant name i variant p
  | .tuple ps => .tupleVariant name i variant ps.length (partsSer ps)
  | .struct fs => .structVariant name i variant fs.length (fieldsSer fs)

/-! ## Reading -/

/-- The generated `Deserialize` of a tuple (or of `[T; n]`). -/
def tupleDe {β : Type} (ds : List (Impl β)) : Impl (List β) :=
  .tuple ds.length fun _ => collectTuple ds []

/-- The generated `Deserialize` of a tuple struct. -/
def tupleStructDe {β : Type} (name : String) (ds : List (Impl β)) : Impl (List β) :=
  .tupleStruct name ds.length fun _ => collectTuple ds []

/-- The generated `Deserialize` of a struct with named fields. -/
def structDe {β : Type} (name : String) (fs : List (String × Impl β)) : Impl (List (String × β)) :=
  .struct name (fs.map (·.1)) (collectFields fs (fs.length + 1) (fs.map fun _ => none))

/-- The parts of a variant. -/
inductive OwnBody (β : Type) where
  | unit
  | newtype (d : Impl β)
  | tuple (ds : List (Impl β))
  | struct (fs : List (String × Impl β))

/-- The arm of the generated `match` of `visit_enum`. -/
def ownVariantDe {β : Type} (i : UInt16) : OwnBody β → VariantImpl (UInt16 × List β)
  | .unit => .unit (.ok (i, []))
  | .newtype d => .newtype d fun v => .ok (i, [v])
  | .tuple ds => .tuple ds.length (fun _ => collectTuple ds []) fun vs => .ok (i, vs)
  | .struct fs => .struct (fs.map (·.1))
      (collectFields fs (fs.length + 1) (fs.map fun _ => none)) fun vs => .ok (i, vs.map (·.2))

/-- The generated `Deserialize` of an enum: which variant, and its parts. -/
def enumDe {β : Type} (name : String) (vs : List (String × OwnBody β)) :
    Impl (UInt16 × List β) :=
  .enum name (vs.map (·.1))
    (.andThen .identifier fun i =>
      if i.toNat < vs.length then .ok i else .error (unknownVariant i.toNat vs.length))
    fun i => match vs[i.toNat]? with
      | some v => ownVariantDe i v.2
      | none => .error (.message "unreachable")

end Dlhn
