import Verif.Model.After
import Verif.Model.Visit
/-!
# `Deserialize` implementations that catch errors

Like `Impl` (Model/Visit.lean), but the code is given the `Result` of every call and
may go on after an error: `T::deserialize(d).unwrap_or_default()`, a visitor that
skips elements it cannot read, and so on. What such code does next depends on where
the failed call left the reader, so `CatchImpl.run` passes the reader through; it
works for every kind of reader `σ` on which plain decoders can be run (`Runner`).

`plain` is code that passes errors on, for instance one call of a method that hands
one value to the visitor. Simplifications: as for `Impl`.
-/
namespace Dlhn

/-- A way to run decoders on a reader: the outcome, and the reader afterwards. -/
abbrev Runner (σ : Type) := ∀ {α : Type}, Prog DeErr α → σ → Outcome DeErr α × σ

mutual
/-- Code with a `&mut Deserializer`. -/
inductive CatchImpl : Type → Type 1 where
  | ok {α : Type} (a : α) : CatchImpl α
  | error {α : Type} (e : DeErr) : CatchImpl α
  | plain {α : Type} (i : Impl α) : CatchImpl α
  /-- `let r = p; k(r)`: go on with the `Result`. -/
  | andThen {β α : Type} (p : CatchImpl β) (k : Except DeErr β → CatchImpl α) : CatchImpl α
  /-- `deserialize_option`. -/
  | option {α : Type} (onNone : CatchImpl α) (onSome : CatchImpl α) : CatchImpl α
  | newtypeStruct {α : Type} (name : String) (visit : CatchImpl α) : CatchImpl α
  | seq {α : Type} (visit : Nat → CatchSeq α) : CatchImpl α
  | tuple {α : Type} (len : Nat) (visit : Nat → CatchSeq α) : CatchImpl α
  | tupleStruct {α : Type} (name : String) (len : Nat) (visit : Nat → CatchSeq α) : CatchImpl α
  | map {α : Type} (visit : Nat → CatchMap α) : CatchImpl α
  | struct {α : Type} (name : String) (fields : List String) (visit : CatchFields α) : CatchImpl α
  /-- `deserialize_enum`: `variant_seed` gives the access back only if it succeeds. -/
  | enum {β α : Type} (name : String) (variants : List String) (seed : CatchImpl β)
      (visit : β → CatchVariant α) (onErr : DeErr → Except DeErr α) : CatchImpl α
/-- Code with a `SeqAccess`. -/
inductive CatchSeq : Type → Type 1 where
  | ok {α : Type} (a : α) : CatchSeq α
  | error {α : Type} (e : DeErr) : CatchSeq α
  /-- `let r = seq.next_element_seed(seed); k(r)`. -/
  | next {β α : Type} (seed : CatchImpl β) (k : Except DeErr (Option β) → CatchSeq α) : CatchSeq α
/-- Code with a `MapAccess` of `deserialize_map`. -/
inductive CatchMap : Type → Type 1 where
  | ok {α : Type} (a : α) : CatchMap α
  | error {α : Type} (e : DeErr) : CatchMap α
  | key {β α : Type} (seed : CatchImpl β) (k : Except DeErr (Option β) → CatchMap α) : CatchMap α
  | value {β α : Type} (seed : CatchImpl β) (k : Except DeErr β → CatchMap α) : CatchMap α
/-- Code with a `MapAccess` of `deserialize_struct`. -/
inductive CatchFields : Type → Type 1 where
  | ok {α : Type} (a : α) : CatchFields α
  | error {α : Type} (e : DeErr) : CatchFields α
  | key {α : Type} (k : Option String → CatchFields α) : CatchFields α
  | value {β α : Type} (seed : CatchImpl β) (k : Except DeErr β → CatchFields α) : CatchFields α
/-- Code with a `VariantAccess`, used at most once. -/
inductive CatchVariant : Type → Type 1 where
  | ok {α : Type} (a : α) : CatchVariant α
  | error {α : Type} (e : DeErr) : CatchVariant α
  | unit {α : Type} (r : Except DeErr α) : CatchVariant α
  | newtype {β α : Type} (seed : CatchImpl β) (k : Except DeErr β → Except DeErr α) :
      CatchVariant α
  | tuple {β α : Type} (len : Nat) (visit : Nat → CatchSeq β)
      (k : Except DeErr β → Except DeErr α) : CatchVariant α
  | struct {β α : Type} (fields : List String) (visit : CatchFields β)
      (k : Except DeErr β → Except DeErr α) : CatchVariant α
end

/-- Go on with a `Result` and the reader. A panic ends everything. -/
def thenWith {α β σ : Type} (r : Outcome DeErr β × σ)
    (k : Except DeErr β → σ → Outcome DeErr α × σ) : Outcome DeErr α × σ :=
  match r with
  | (.ok b, s) => k (.ok b) s
  | (.err e, s) => k (.error e) s
  | (.panic q, s) => (.panic q, s)

/-- Go on with a value (`?`) and the reader. -/
def thenOk {α β σ : Type} (r : Outcome DeErr β × σ) (k : β → σ → Outcome DeErr α × σ) :
    Outcome DeErr α × σ :=
  thenWith r fun
    | .ok b, s => k b s
    | .error e, s => (.err e, s)

/-- A `Result` the implementation returns. -/
def returnWith {α σ : Type} (r : Except DeErr α) (s : σ) : Outcome DeErr α × σ :=
  match r with
  | .ok a => (.ok a, s)
  | .error e => (.err e, s)

open De PrefixVarint

mutual
/-- What the implementation does, dlhn/src/de.rs:54-388 as in `Impl.run`. -/
def CatchImpl.run {σ : Type} (t : Target) (r : Runner σ) :
    {α : Type} → CatchImpl α → σ → Outcome DeErr α × σ
  | _, .ok a, s => (.ok a, s)
  | _, .error e, s => (.err e, s)
  | _, .plain i, s => r (i.run t) s
  | _, .andThen p k, s => thenWith (p.run t r s) fun b s => (k b).run t r s
  -- dlhn/src/de.rs:271-280
  | _, .option onNone onSome, s => thenOk (r deBool s) fun b s =>
      if b then onSome.run t r s else onNone.run t r s
  -- dlhn/src/de.rs:300-309
  | _, .newtypeStruct _ visit, s => visit.run t r s
  -- dlhn/src/de.rs:311-317
  | _, .seq visit, s => thenOk (r (io decodeU64) s) fun count s =>
      (visit (t.asUsize count)).run t r (t.asUsize count) s
  -- dlhn/src/de.rs:319-336
  | _, .tuple len visit, s => (visit len).run t r len s
  | _, .tupleStruct _ len visit, s => (visit len).run t r len s
  -- dlhn/src/de.rs:338-344
  | _, .map visit, s => thenOk (r (io decodeU64) s) fun count s =>
      (visit (t.asUsize count)).run t r (t.asUsize count) s
  -- dlhn/src/de.rs:346-356
  | _, .struct _ fields visit, s => visit.run t r fields s
  -- dlhn/src/de.rs:358-368, 508-513
  | _, .enum _ _ seed visit onErr, s => thenWith (seed.run t r s) fun b s =>
      match b with
      | .ok b => (visit b).run t r s
      | .error e => returnWith (onErr e) s
/-- `SeqDeserializer`, dlhn/src/de.rs:390-418: the counter goes down before the seed is
called, whatever comes of it. -/
def CatchSeq.run {σ : Type} (t : Target) (r : Runner σ) :
    {α : Type} → CatchSeq α → (count : Nat) → σ → Outcome DeErr α × σ
  | _, .ok a, _, s => (.ok a, s)
  | _, .error e, _, s => (.err e, s)
  | _, .next seed k, count, s =>
    if count > 0 then
      thenWith (seed.run t r s) fun b s => (k (b.map some)).run t r (count - 1) s
    else (k (.ok none)).run t r count s
/-- `MapDeserializer`, dlhn/src/de.rs:420-455. -/
def CatchMap.run {σ : Type} (t : Target) (r : Runner σ) :
    {α : Type} → CatchMap α → (count : Nat) → σ → Outcome DeErr α × σ
  | _, .ok a, _, s => (.ok a, s)
  | _, .error e, _, s => (.err e, s)
  | _, .key seed k, count, s =>
    if count > 0 then
      thenWith (seed.run t r s) fun b s => (k (b.map some)).run t r (count - 1) s
    else (k (.ok none)).run t r count s
  | _, .value seed k, count, s => thenWith (seed.run t r s) fun b s => (k b).run t r count s
/-- `StructDeserializer`, dlhn/src/de.rs:457-492. -/
def CatchFields.run {σ : Type} (t : Target) (r : Runner σ) :
    {α : Type} → CatchFields α → (keys : List String) → σ → Outcome DeErr α × σ
  | _, .ok a, _, s => (.ok a, s)
  | _, .error e, _, s => (.err e, s)
  | _, .key k, name :: keys, s => (k (some name)).run t r keys s
  | _, .key k, [], s => (k none).run t r [] s
  | _, .value seed k, keys, s => thenWith (seed.run t r s) fun b s => (k b).run t r keys s
/-- `VariantAccess`, dlhn/src/de.rs:516-547. -/
def CatchVariant.run {σ : Type} (t : Target) (r : Runner σ) :
    {α : Type} → CatchVariant α → σ → Outcome DeErr α × σ
  | _, .ok a, s => (.ok a, s)
  | _, .error e, s => (.err e, s)
  | _, .unit x, s => returnWith x s
  | _, .newtype seed k, s => thenWith (seed.run t r s) fun b s => returnWith (k b) s
  | _, .tuple len visit k, s => thenWith ((visit len).run t r len s) fun b s => returnWith (k b) s
  | _, .struct fields visit k, s =>
    thenWith (visit.run t r fields s) fun b s => returnWith (k b) s
end

/-- On an arbitrary reader. -/
def CatchImpl.runScript {α : Type} (t : Target) (size : Nat → Nat) (i : CatchImpl α) (s : Script) :
    Outcome DeErr α × Script :=
  i.run t (fun p s => p.runScriptAt t size s) s

/-- On data that end for good. -/
def CatchImpl.exec {α : Type} (t : Target) (i : CatchImpl α) (bs : List UInt8) :
    Outcome DeErr α × List UInt8 :=
  i.run t (fun p bs => p.execAt t bs) bs

/-! ## Common implementations -/

/-- `T::deserialize(d).unwrap_or(default)`. -/
def orDefault {α : Type} (i : CatchImpl α) (default : α) : CatchImpl α :=
  .andThen i fun
    | .ok a => .ok a
    | .error _ => .ok default

/-- The visitor of `Vec<T>`, `T` being an implementation that may catch errors:
`while let Some(x) = seq.next_element()? { values.push(x) }`. -/
def catchVecLoop {β : Type} (seed : CatchImpl β) : (fuel : Nat) → List β → CatchSeq (List β)
  | 0, _ => .error (.message "unreachable")
  | fuel + 1, values => .next seed fun
    | .ok none => .ok values
    | .ok (some x) => catchVecLoop seed fuel (values ++ [x])
    | .error e => .error e

/-- `Vec<T>`. -/
def catchVec {β : Type} (seed : CatchImpl β) : CatchImpl (List β) :=
  .seq fun n => catchVecLoop seed (n + 1) []

/-- A visitor that leaves out elements it cannot read: `loop { match seq.next_element() {
Ok(Some(x)) => values.push(x), Ok(None) => return Ok(values), Err(_) => continue } }`. -/
def skipVecLoop {β : Type} (seed : CatchImpl β) : (fuel : Nat) → List β → CatchSeq (List β)
  | 0, _ => .error (.message "unreachable")
  | fuel + 1, values => .next seed fun
    | .ok none => .ok values
    | .ok (some x) => skipVecLoop seed fuel (values ++ [x])
    | .error _ => skipVecLoop seed fuel values

/-- A sequence without the elements that cannot be read. -/
def skipVec {β : Type} (seed : CatchImpl β) : CatchImpl (List β) :=
  .seq fun n => skipVecLoop seed (n + 1) []

/-- A visitor of a map that leaves out entries of which the key or the value cannot be
read. It reads the value after a bad key, too. -/
def skipMapLoop {κ β : Type} (key : CatchImpl κ) (value : CatchImpl β) :
    (fuel : Nat) → List (κ × β) → CatchMap (List (κ × β))
  | 0, _ => .error (.message "unreachable")
  | fuel + 1, entries => .key key fun
    | .ok none => .ok entries
    | .ok (some k) => .value value fun
      | .ok v => skipMapLoop key value fuel (entries ++ [(k, v)])
      | .error _ => skipMapLoop key value fuel entries
    | .error _ => .value value fun _ => skipMapLoop key value fuel entries

/-- A map without the entries that cannot be read. -/
def skipMap {κ β : Type} (key : CatchImpl κ) (value : CatchImpl β) :
    CatchImpl (List (κ × β)) :=
  .map fun n => skipMapLoop key value (n + 1) []

/-- A visitor of a struct whose fields all have the same type and that leaves out the
fields it cannot read. -/
def skipFieldsLoop {β : Type} (seed : CatchImpl β) :
    (fuel : Nat) → List (String × β) → CatchFields (List (String × β))
  | 0, _ => .error (.message "unreachable")
  | fuel + 1, entries => .key fun
    | none => .ok entries
    | some name => .value seed fun
      | .ok v => skipFieldsLoop seed fuel (entries ++ [(name, v)])
      | .error _ => skipFieldsLoop seed fuel entries

/-- A struct without the fields that cannot be read. -/
def skipFields {β : Type} (name : String) (fields : List String) (seed : CatchImpl β) :
    CatchImpl (List (String × β)) :=
  .struct name fields (skipFieldsLoop seed (fields.length + 1) [])

end Dlhn
