import Verif.Model.Attrs
/-!
# Adjacently tagged enums

What serde_derive generates for `#[serde(tag = "..", content = "..")]`, as far as it decides
which calls are made on dlhn's serializer and deserializer (the generated code is not in /repo).
There are two generations: up to serde 1.0.18x the tag is serialized as a string, the name of the
variant, and asked for with `deserialize_identifier`; since then it is serialized with
`serialize_unit_variant` and asked for with `deserialize_enum`. `Tagging` is that choice.
`Cargo.toml` (dlhn/Cargo.toml:20) allows both.
-/
namespace Dlhn

open De

/-- How the tag is passed to the serializer and asked for. -/
inductive Tagging where
  /-- `serialize_str(variant)`, `deserialize_identifier` -/
  | byName
  /-- `serialize_unit_variant(name, index, variant)`, `deserialize_enum` -/
  | byVariant

/-- The tag. -/
def adjacentTag (g : Tagging) (name : String) (i : UInt32) (variant : String) : SerImpl :=
  match g with
  | .byName => .str variant
  | .byVariant => .unitVariant name i variant

/-- A struct of the tag and, if the variant has fields, the content: the fields as they are written
for `#[serde(untagged)]`. (`v` is the value as it is without the attribute.) -/
def adjacentSer (g : Tagging) (tag content : String) (v : Val) : SerImpl :=
  match v with
  | .unitVariant name i variant => .struct name 1 (.field tag (adjacentTag g name i variant) fun
    | none => .finish
    | some e => .error e)
  | .newtypeVariant name i variant _ | .tupleVariant name i variant _
  | .structVariant name i variant _ =>
    .struct name 2 (.field tag (adjacentTag g name i variant) fun
      | none => .field content (untaggedSer v) fun
        | none => .finish
        | some e => .error e
      | some e => .error e)
  | v => implOfVal v

/-- The index of the variant, checked while it is deserialized. -/
def variantIndex (count : Nat) : Impl UInt16 :=
  .andThen .identifier fun i =>
    if i.toNat < count then .ok i else .error (unknownVariant i.toNat count)

/-- The tag, read: the index as an identifier, or as an enum whose variant has no fields. -/
def adjacentTagDe (g : Tagging) (name : String) (vs : List (String × VTy)) : Impl UInt16 :=
  match g with
  | .byName => variantIndex vs.length
  | .byVariant => .enum name (vs.map (·.1)) (variantIndex vs.length) fun i => .unit (.ok i)

/-- The content of a variant, read: the visitor of a unit or struct variant is passed to
`deserialize_any`, that of a tuple variant to `deserialize_tuple`. -/
def adjacentContent (name : String) (i : UInt32) (vn : String) : VTy → Impl Val
  | .unit => .any
  | .newtype ty => .andThen (implOf ty) fun v => .ok (.newtypeVariant name i vn v)
  | .tuple ts => .andThen (.tuple (implAll ts).length fun _ => collectTuple (implAll ts) [])
      fun vs => .ok (.tupleVariant name i vn vs)
  | .struct _ => .any

/-- If there is no content: fine for a unit variant. -/
def adjacentMissing (name content : String) (i : UInt16) : Option (String × VTy) → FieldsImpl Val
  | some (vn, .unit) => .ok (.unitVariant name i.toUInt32 vn)
  | _ => .error (.message ("missing field `" ++ content ++ "`"))

/-- The generated `visit_map`. The first key is the tag (or the content, which is then buffered as
a value of unknown type), the second one the content; then there must be no other. Keys that are
neither are an error here; without `deny_unknown_fields` they are skipped. -/
def visitAdjacent (g : Tagging) (tag content name : String) (vs : List (String × VTy)) :
    FieldsImpl Val :=
  .key fun
    | none => .error (.message ("missing field `" ++ tag ++ "`"))
    | some first =>
      if first = tag then .value (adjacentTagDe g name vs) fun i => .key fun
        | none => adjacentMissing name content i vs[i.toNat]?
        | some second =>
          if second = tag then .error (.message ("duplicate field `" ++ tag ++ "`"))
          else if second = content then match vs[i.toNat]? with
            | some (vn, vt) => .value (adjacentContent name i.toUInt32 vn vt) fun v => .key fun
              | none => .ok v
              | some third => .error (.message ("duplicate field `" ++ third ++ "`"))
            | none => .error (.message "unreachable")
          else .error (.message "invalid value")
      else if first = content then .value (β := Unit) .any fun _ => .error (.message "unreachable")
      else .error (.message "invalid value")

/-- `T::deserialize`: `deserialize_struct(name, &[tag, content], visitor)`. -/
def adjacentDe (g : Tagging) (tag content name : String) (vs : List (String × VTy)) : Impl Val :=
  .struct name [tag, content] (visitAdjacent g tag content name vs)

end Dlhn
