import Verif.Spec.StdTypes
import Verif.Spec.SerImpl
import Verif.Model.With
import Verif.Model.AnyReader
/-!
# Specification: values made of parts with code of their own

A part is a `SerImpl`, what its `serialize` does with its value, an `Impl β`, its `deserialize`,
and the value. Of the model only the types of implementations are used.
-/
namespace Dlhn

/-- The one writes `enc`, which the other reads as `a`. -/
def Carries (t : Target) {α : Type} (p : SerImpl) (i : Impl α) (a : α) (enc : List UInt8) : Prop :=
  Writes p enc ∧ Reads t i enc a

/-- Part by part; the bytes one after the other. -/
inductive CarriesAll (t : Target) {β : Type} :
    List SerImpl → List (Impl β) → List β → List UInt8 → Prop where
  | nil : CarriesAll t [] [] [] []
  | cons {p : SerImpl} {i : Impl β} {a : β} {enc encs : List UInt8} {ps : List SerImpl}
      {is : List (Impl β)} {as : List β} : Carries t p i a enc → CarriesAll t ps is as encs →
      CarriesAll t (p :: ps) (i :: is) (a :: as) (enc ++ encs)

/-- The parts of a variant. -/
inductive CarriesBody (t : Target) {β : Type} :
    OwnParts → OwnBody β → List β → List UInt8 → Prop where
  | unit : CarriesBody t .unit .unit [] []
  | newtype {p : SerImpl} {i : Impl β} {a : β} {enc : List UInt8} : Carries t p i a enc →
      CarriesBody t (.newtype p) (.newtype i) [a] enc
  | tuple {ps : List SerImpl} {is : List (Impl β)} {as : List β} {enc : List UInt8} :
      CarriesAll t ps is as enc → CarriesBody t (.tuple ps) (.tuple is) as enc
  | struct {names : List String} {ps : List SerImpl} {is : List (Impl β)} {as : List β}
      {enc : List UInt8} : names.Nodup → names.length = as.length → CarriesAll t ps is as enc →
      CarriesBody t (.struct (names.zip ps)) (.struct (names.zip is)) as enc

/-- Entries of a map: the key writes, on a serializer for keys, a text that comes back as the
key. -/
inductive CarriesEntries (t : Target) {κ β : Type} (key : Impl κ) (value : Impl β) :
    List (SerImpl × SerImpl) → List (κ × β) → List UInt8 → Prop where
  | nil : CarriesEntries t key value [] [] []
  | cons {p q : SerImpl} {k : κ} {a : β} {text : String} {enc encs : List UInt8}
      {es : List (SerImpl × SerImpl)} {as : List (κ × β)} : Spec.keyText p = some text →
      Reads t key (Spec.counted (Spec.utf8 text)) k → Carries t q value a enc →
      CarriesEntries t key value es as encs →
      CarriesEntries t key value ((p, q) :: es) ((k, a) :: as)
        (Spec.counted (Spec.utf8 text) ++ enc ++ encs)

/-- On a reader: each in turn, up to the first that does not return `Ok`. -/
inductive InTurn {σ : Type} (step : RStep σ) (t : Target) {β : Type} :
    List (Impl β) → σ → List ReadRes → Outcome DeErr (List β) → σ → Prop where
  | all {s : σ} : InTurn step t [] s [] (.ok []) s
  | next {i : Impl β} {is : List (Impl β)} {s s1 s' : σ} {cs cs' : List ReadRes} {a : β}
      {o : Outcome DeErr (List β)} : Runs step t (i.run t) s cs (.ok a) s1 →
      InTurn step t is s1 cs' o s' →
      InTurn step t (i :: is) s (cs ++ cs') (o.map (a :: ·)) s'
  | err {i : Impl β} {is : List (Impl β)} {s s' : σ} {cs : List ReadRes} {e : DeErr} :
      Runs step t (i.run t) s cs (.err e) s' → InTurn step t (i :: is) s cs (.err e) s'
  | panic {i : Impl β} {is : List (Impl β)} {s s' : σ} {cs : List ReadRes} {q : PanicKind} :
      Runs step t (i.run t) s cs (.panic q) s' → InTurn step t (i :: is) s cs (.panic q) s'

end Dlhn
