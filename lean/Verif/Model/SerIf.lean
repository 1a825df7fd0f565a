import Verif.Model.Derive
/-!
# `#[serde(skip_serializing_if = "..")]`

The macro rejects the attribute on the fields of structs and on variants
(dlhn_derive/src/lib.rs:31-36, 75-80) but does not look at the fields of variants.
`Derive.ser` writes such fields always; `serIf` is what serde_derive generates, which asks
the predicate.
-/
namespace Dlhn.Derive

/-- The predicates: whether the field with these attributes and this type is left out. -/
abbrev Cond := (attrs : List Attr) → (T : RTy) → Carrier T → Bool

/-- Whether serde_derive generates a test of a predicate for a field. -/
def serdeTests (attrs : List Attr) : Bool :=
  attrs.any fun a => a.path == some "serde" &&
    (a.items.getD []).any fun i => i == some "skip_serializing_if"

mutual
/-- `value.serialize(&mut Serializer)` with the code serde_derive generates for
`skip_serializing_if`: `if !predicate(&self.field) { serialize_field } else { skip_field }`;
the `skip_field` of dlhn/src/ser.rs:360-397 is serde's default, which does nothing. It makes
no difference for a single unnamed field (`serialize_newtype_struct`,
`serialize_newtype_variant`). -/
def serIf (cond : Cond) (mode : BuildMode) : (T : RTy) → Carrier T → WProg SerErr
  | .option _, none => Ser.emit [0]
  | .option T, some v => (Ser.emit [1]).andThen (serIf cond mode T v)
  | .vec T, vs => (Ser.serHint (some vs.length)).andThen (serSeq (serIf cond mode T) vs)
  | .btreeMap T, es => (Ser.serHint (some es.length)).andThen (serMap (serIf cond mode T) es)
  | .hashMap T, es => (Ser.serHint (some es.length)).andThen (serMap (serIf cond mode T) es)
  | .tuple Ts, vs => serTupleIf cond mode Ts vs
  | .struct _ (.named fs), vs => serFieldsIf cond mode fs vs
  | .struct _ (.unnamed []), _ => .skip
  | .struct _ (.unnamed [.mk _ _ T]), vs => serIf cond mode T vs.1
  | .struct _ (.unnamed (f :: g :: fs)), vs => serFieldsIf cond mode (f :: g :: fs) vs
  | .struct _ .unit, _ => .skip
  | .enum name vs, v => serVariantIf cond mode name 0 vs v
  | T, v => ser mode T v
/-- Members in order, dlhn/src/ser.rs:285-300. -/
def serTupleIf (cond : Cond) (mode : BuildMode) : (Ts : List RTy) → TupleCarrier Ts → WProg SerErr
  | [], _ => .skip
  | T :: Ts, (v, vs) => (serIf cond mode T v).andThen (serTupleIf cond mode Ts vs)
/-- Fields in order, without those skipped or left out, dlhn/src/ser.rs:302-317, 360-378. -/
def serFieldsIf (cond : Cond) (mode : BuildMode) :
    (fs : List RField) → FieldCarrier fs → WProg SerErr
  | [], _ => .skip
  | .mk attrs _ T :: fs, (v, vs) =>
    if serdeSkips attrs then serFieldsIf cond mode fs vs
    else if serdeTests attrs && cond attrs T v then serFieldsIf cond mode fs vs
    else (serIf cond mode T v).andThen (serFieldsIf cond mode fs vs)
/-- One variant, dlhn/src/ser.rs:171-203, 224-233, 251-260, 319-334, 380-397. -/
def serVariantIf (cond : Cond) (mode : BuildMode) (name : String) (i : Nat) :
    (vs : List RVariant) → VariantsCarrier vs → WProg SerErr
  | .mk attrs vn fields :: _, .inl v =>
    if serdeSkips attrs then
      .done (.err (.message ("the enum variant " ++ name ++ "::" ++ vn ++ " cannot be serialized")))
    else (Ser.serU32 (UInt32.ofNat i)).andThen <| match fields, v with
      | .named fs, v => serFieldsIf cond mode fs v
      | .unnamed [], _ => .skip
      | .unnamed [.mk attrs _ T], v =>
        if serdeSkips attrs then .skip else serIf cond mode T v.1
      | .unnamed (f :: g :: fs), v => serFieldsIf cond mode (f :: g :: fs) v
      | .unit, _ => .skip
  | .mk _ _ _ :: vs, .inr v => serVariantIf cond mode name (i + 1) vs v
end

end Dlhn.Derive
