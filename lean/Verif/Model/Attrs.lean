import Verif.Model.VisitStd
import Verif.Model.SerImpl
/-!
# Serde attributes that change what the derived implementations do

The derived code belongs to serde_derive, not to /repo; here it is written down for the
attributes that neither dlhn nor its macro looks at, as far as it decides which calls are made
on dlhn's serializer and deserializer:

* `default`, `alias` and `deny_unknown_fields` on structs, and the `None` of a missing
  `Option`: the visitor of a struct;
* `other` on a variant: the visitor of an enum;
* `untagged` and `tag` on enums, `flatten` on fields: other calls altogether.

Adjacently tagged enums (`tag` and `content`) are in Model/Adjacent.lean.
-/
namespace Dlhn

open De

/-! ## Structs -/

/-- A field as the visitor of its struct knows it. -/
structure AField where
  name : String
  /-- `#[serde(alias = "..")]` -/
  aliases : List String
  ty : Ty
  /-- What is done if the data have no such field: `Err(missing field)`; with
  `#[serde(default)]` the default; `None` for an `Option`. -/
  missing : Except DeErr Val

/-- Whether a key stands for the field. -/
def AField.answers (f : AField) (key : String) : Bool := key = f.name || f.aliases.contains key

/-- The fields, those without a value being replaced or reported. -/
def fillOr : List AField → List (Option Val) → Except DeErr (List (String × Val))
  | [], _ => .ok []
  | f :: fs, some v :: slots => (fillOr fs slots).map ((f.name, v) :: ·)
  | f :: fs, slots => f.missing.bind fun v => (fillOr fs slots.tail).map ((f.name, v) :: ·)

/-- The generated `visit_map`. Unknown keys are an error with `deny_unknown_fields`, otherwise
their value is ignored. -/
def visitFields (deny : Bool) (fs : List AField) :
    (fuel : Nat) → (slots : List (Option Val)) → FieldsImpl (List (String × Val))
  | 0, _ => .error (.message "unreachable")
  | fuel + 1, slots => .key fun
    | none => match fillOr fs slots with
      | .ok vs => .ok vs
      | .error e => .error e
    | some key => match fs.findIdx? (·.answers key) with
      | none =>
        if deny then .error (.message ("unknown field `" ++ key ++ "`"))
        else .value (β := Unit) .ignoredAny fun _ => visitFields deny fs fuel slots
      | some i => match slots[i]?, fs[i]? with
        | some none, some f =>
          .value (implOf f.ty) fun v => visitFields deny fs fuel (slots.set i (some v))
        | _, some f => .error (.message ("duplicate field `" ++ f.name ++ "`"))
        | _, none => .error (.message "unreachable")

/-- `T::deserialize` of a struct: `deserialize_struct(name, FIELDS, visitor)`. `listed` is
`FIELDS`, the names of the fields; some versions of serde_derive list the aliases, too. -/
def attrStruct (deny : Bool) (name : String) (listed : List String) (fs : List AField) : Impl Val :=
  .andThen (.struct name listed (visitFields deny fs (listed.length + 1) (fs.map fun _ => none)))
    fun vs => .ok (.struct name vs)

/-! ## Enums with an `other` variant -/

/-- `T::deserialize` of an enum whose unit variant number `other` has `#[serde(other)]`: every
index that is not a variant's stands for that one. -/
def otherEnum (name : String) (vs : List (String × VTy)) (other : UInt16) : Impl Val :=
  .enum name (vs.map (·.1))
    (.andThen .identifier fun i => .ok (if i.toNat < vs.length then i else other))
    fun i => implVariant name i i.toNat vs

/-! ## Enums without a variant index -/

/-- `#[serde(untagged)]`: the fields alone. (`v` is the value as it is without the attribute.) -/
def untaggedSer : Val → SerImpl
  | .unitVariant _ _ _ => .unit
  | .newtypeVariant _ _ _ v => implOfVal v
  | .tupleVariant _ _ _ vs => .tuple vs.length (seqOfVals vs)
  | .structVariant _ _ variant fs => .struct variant fs.length (structOfVals fs)
  | v => implOfVal v

/-- What `#[serde(tag = "..")]` does to the value inside a newtype variant
(`TaggedSerializer`): the tag becomes the first field of a struct and the first entry of a map;
other types are an error (some versions accept units and enums, which is not modelled). -/
def taggedSer (tag variant : String) : Val → SerImpl
  | .struct name fs => .struct name (fs.length + 1) (.field tag (.str variant) fun
    | none => structOfVals fs
    | some e => .error e)
  | .map len es => .map (len.map (· + 1)) (.key (.str tag) fun
    | none => .value (.str variant) fun
      | none => mapOfVals es
      | some e => .error e
    | some e => .error e)
  | .newtypeStruct _ v => taggedSer tag variant v
  | _ => .error (.message "cannot serialize tagged newtype variant")

/-- `#[serde(tag = "..")]`: the name of the variant as a field before the others. A tuple
variant does not compile. -/
def internalSer (tag : String) : Val → SerImpl
  | .unitVariant name _ variant => .struct name 1 (.field tag (.str variant) fun
    | none => .finish
    | some e => .error e)
  | .newtypeVariant _ _ variant v => taggedSer tag variant v
  | .structVariant name _ variant fs => .struct name (fs.length + 1) (.field tag (.str variant) fun
    | none => structOfVals fs
    | some e => .error e)
  | v => implOfVal v

/-- `T::deserialize` of such enums begins with buffering a value of unknown type:
`Content::deserialize(deserializer)?` or `deserializer.deserialize_any(..)?`. What is made of
it is `pick`. -/
def bufferedDe {Content : Type} (pick : Content → Impl Val) : Impl Val := .andThen .any pick

/-! ## Flattened structs -/

/-- The fields of a value of a struct with `#[serde(flatten)]`: its own, and the fields or
entries of a flattened one. -/
inductive FlatItem where
  | own (name : String) (v : Val)
  | flat (fs : List (String × Val))

/-- The entries of one item. -/
def FlatItem.entries : FlatItem → List (String × Val)
  | .own n v => [(n, v)]
  | .flat fs => fs

/-- `serialize_map(None)` and one entry for each field. -/
def flattenSer (items : List FlatItem) : SerImpl :=
  .map none (mapOfVals ((items.flatMap (·.entries)).map fun e => (.str e.1, e.2)))

/-- The visitor: every key is asked for with `deserialize_identifier`, for which dlhn returns a
number, so that it is kept for the flattened fields, with its value as one of unknown type. -/
def visitFlat {Content : Type} (finish : List (UInt16 × Content) → Except DeErr Val) :
    (fuel : Nat) → List (UInt16 × Content) → MapImpl Val
  | 0, _ => .error (.message "unreachable")
  | fuel + 1, kept => .key .identifier fun
    | none => match finish kept with
      | .ok v => .ok v
      | .error e => .error e
    | some key => .value .any fun c => visitFlat finish fuel (kept ++ [(key, c)])

/-- `T::deserialize` of such a struct: `deserialize_map`. -/
def flattenDe {Content : Type} (finish : List (UInt16 × Content) → Except DeErr Val) : Impl Val :=
  .map fun count => visitFlat finish (count + 1) []

end Dlhn
