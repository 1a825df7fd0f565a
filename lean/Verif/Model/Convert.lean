import Verif.Model.StdTypes
/-!
# Types serialized through another type

`#[serde(into = "U")]`, `#[serde(from = "U")]` and `#[serde(try_from = "U")]` make serde_derive
(not part of /repo) generate implementations that convert and leave the rest to `U`;
`#[serde(transparent)]` leaves everything to the one field there is. dlhn's serializer and
deserializer see the calls of `U` only (dlhn/src/ser.rs, dlhn/src/de.rs), and dlhn_derive does not
look at attributes of the type itself (dlhn_derive/src/lib.rs:20-24: `item.attrs` is not used).
Texts of errors are what the conversion's error prints; the conversion neither panics nor touches
the stream.
-/
namespace Dlhn

/-- `Serialize for T` with `into = "U"`: `U::from(self.clone()).serialize(serializer)`. -/
def intoSer {α β : Type} (ser : β → SerImpl) (into : α → β) (a : α) : SerImpl := ser (into a)

/-- `Deserialize for T` with `from = "U"`: `U::deserialize(deserializer).map(T::from)`. -/
def fromDe {α β : Type} (de : Impl β) (from_ : β → α) : Impl α :=
  .andThen de fun b => .ok (from_ b)

/-- `Deserialize for T` with `try_from = "U"`: `U::deserialize(deserializer).and_then(|v|
T::try_from(v).map_err(serde::de::Error::custom))`; `custom` is `Error::Message`,
dlhn/src/de.rs:19-23. -/
def tryFromDe {α β : Type} (de : Impl β) (tryFrom : β → Except String α) : Impl α :=
  .andThen de fun b => match tryFrom b with
    | .ok a => .ok a
    | .error msg => .error (.message msg)

/-! ## Types that contain such a type -/

/-- `Deserialize for Option<T>`. -/
def optionDe {α : Type} (de : Impl α) : Impl (Option α) :=
  .option (.ok none) (.andThen de fun a => .ok (some a))

/-- `Deserialize for Vec<T>`. -/
def vecDe {α : Type} (de : Impl α) : Impl (List α) :=
  .seq fun n => collectSeq de (n + 1) []

/-- `Deserialize` for maps, the entries in the order in which they arrive. -/
def entriesDe {κ α : Type} (key : Impl κ) (value : Impl α) : Impl (List (κ × α)) :=
  .map fun n => collectMap key value (n + 1) []

end Dlhn
