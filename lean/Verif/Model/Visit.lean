import Verif.Model.De
/-!
# Arbitrary `Deserialize` implementations

`De.de` (Model/De.lean) is the deserializer driven by the implementations serde
and serde_derive provide. Here it is driven by any implementation: an `Impl α` is
the code of a `Deserialize` (or `DeserializeSeed`) implementation producing an `α`,
as the tree of the calls it makes, and `Impl.run` is what those calls do, written
after the methods of `Deserializer`, `SeqDeserializer`, `MapDeserializer`,
`StructDeserializer` and `VariantDeserializer`.

Simplifications. Every failing call is propagated (`?`); an implementation that
catches an error and goes on is a `CatchImpl` (Model/Catch.lean). A visitor is given the counter
of its access (`Nat →`), which real visitors cannot see: a loop until `None` is
written unfolded that often, and every result about all `Impl`s holds for the
visitors that ignore it. An `Impl` may use the deserializer any number of times,
which `Deserialize` implementations, that own it, can only do through accesses.
Panics and allocations of the implementation's own code are not modelled.
-/
namespace Dlhn

mutual
/-- Code with a `&mut Deserializer`. -/
inductive Impl : Type → Type 1 where
  /-- `Ok(a)`. -/
  | ok {α : Type} (a : α) : Impl α
  /-- `Err(e)`, for instance `Err(de::Error::custom(msg))`. -/
  | error {α : Type} (e : DeErr) : Impl α
  /-- `let b = p?; k(b)`. -/
  | andThen {β α : Type} (p : Impl β) (k : β → Impl α) : Impl α
  /-- `if deserializer.is_human_readable() { .. } else { .. }`. -/
  | humanReadable {α : Type} (k : Bool → Impl α) : Impl α
  /-- `deserialize_any`, `deserialize_str`, `deserialize_bytes`,
  `deserialize_ignored_any`. -/
  | any {α : Type} : Impl α
  | str {α : Type} : Impl α
  | bytes {α : Type} : Impl α
  | ignoredAny {α : Type} : Impl α
  /-- The other methods that hand one value to the visitor. -/
  | bool : Impl Bool
  | i8 : Impl Int8
  | i16 : Impl Int16
  | i32 : Impl Int32
  | i64 : Impl Int64
  | i128 {α : Type} : Impl α
  | u8 : Impl UInt8
  | u16 : Impl UInt16
  | u32 : Impl UInt32
  | u64 : Impl UInt64
  | u128 {α : Type} : Impl α
  | f32 : Impl UInt32
  | f64 : Impl UInt64
  | char : Impl Char
  | string : Impl String
  | byteBuf : Impl (List UInt8)
  | identifier : Impl UInt16
  | unit : Impl Unit
  | unitStruct (name : String) : Impl Unit
  /-- `deserialize_option`: `visit_none` continues with `onNone`, `visit_some` with
  `onSome`, which may use the deserializer. -/
  | option {α : Type} (onNone : Impl α) (onSome : Impl α) : Impl α
  /-- `deserialize_newtype_struct`: `visit_newtype_struct` gets the deserializer. -/
  | newtypeStruct {α : Type} (name : String) (visit : Impl α) : Impl α
  | seq {α : Type} (visit : Nat → SeqImpl α) : Impl α
  | tuple {α : Type} (len : Nat) (visit : Nat → SeqImpl α) : Impl α
  | tupleStruct {α : Type} (name : String) (len : Nat) (visit : Nat → SeqImpl α) : Impl α
  | map {α : Type} (visit : Nat → MapImpl α) : Impl α
  | struct {α : Type} (name : String) (fields : List String) (visit : FieldsImpl α) : Impl α
  /-- `deserialize_enum`: `visit_enum` calls `variant_seed` with a seed and goes on
  with what it returns. -/
  | enum {β α : Type} (name : String) (variants : List String) (seed : Impl β)
      (visit : β → VariantImpl α) : Impl α
/-- `visit_seq`: code with a `SeqAccess`. -/
inductive SeqImpl : Type → Type 1 where
  | ok {α : Type} (a : α) : SeqImpl α
  | error {α : Type} (e : DeErr) : SeqImpl α
  /-- `next_element_seed(seed)?`. -/
  | next {β α : Type} (seed : Impl β) (k : Option β → SeqImpl α) : SeqImpl α
/-- `visit_map`: code with a `MapAccess` of `deserialize_map`. -/
inductive MapImpl : Type → Type 1 where
  | ok {α : Type} (a : α) : MapImpl α
  | error {α : Type} (e : DeErr) : MapImpl α
  /-- `next_key_seed(seed)?`. -/
  | key {β α : Type} (seed : Impl β) (k : Option β → MapImpl α) : MapImpl α
  /-- `next_value_seed(seed)?`. -/
  | value {β α : Type} (seed : Impl β) (k : β → MapImpl α) : MapImpl α
/-- `visit_map`: code with a `MapAccess` of `deserialize_struct`. -/
inductive FieldsImpl : Type → Type 1 where
  | ok {α : Type} (a : α) : FieldsImpl α
  | error {α : Type} (e : DeErr) : FieldsImpl α
  /-- `next_key_seed(seed)?`: the seed is given the next field name as a borrowed
  string and continues in `k`. -/
  | key {α : Type} (k : Option String → FieldsImpl α) : FieldsImpl α
  /-- `next_value_seed(seed)?`. -/
  | value {β α : Type} (seed : Impl β) (k : β → FieldsImpl α) : FieldsImpl α
/-- The rest of `visit_enum`: code with a `VariantAccess`, used at most once,
after which the implementation no longer has the deserializer. -/
inductive VariantImpl : Type → Type 1 where
  | ok {α : Type} (a : α) : VariantImpl α
  | error {α : Type} (e : DeErr) : VariantImpl α
  /-- `unit_variant()?`. -/
  | unit {α : Type} (r : Except DeErr α) : VariantImpl α
  /-- `newtype_variant_seed(seed)?`. -/
  | newtype {β α : Type} (seed : Impl β) (k : β → Except DeErr α) : VariantImpl α
  /-- `tuple_variant(len, visitor)?`. -/
  | tuple {β α : Type} (len : Nat) (visit : Nat → SeqImpl β) (k : β → Except DeErr α) :
      VariantImpl α
  /-- `struct_variant(fields, visitor)?`. -/
  | struct {β α : Type} (fields : List String) (visit : FieldsImpl β) (k : β → Except DeErr α) :
      VariantImpl α
end

open De PrefixVarint

/-- A `Result` the implementation returns. -/
def ofExcept {α : Type} : Except DeErr α → Prog DeErr α
  | .ok a => .done (.ok a)
  | .error e => .done (.err e)

mutual
/-- What the implementation does. -/
def Impl.run (t : Target) : {α : Type} → Impl α → Prog DeErr α
  | _, .ok a => .done (.ok a)
  | _, .error e => .done (.err e)
  | _, .andThen p k => Prog.bind (p.run t) fun b => (k b).run t
  -- `is_human_readable`, dlhn/src/de.rs:384-387
  | _, .humanReadable k => (k false).run t
  -- `todo!()`, dlhn/src/de.rs:62-67, 203-208, 239-244, 377-382
  | _, .any => .done (.panic .todo)
  | _, .str => .done (.panic .todo)
  | _, .bytes => .done (.panic .todo)
  | _, .ignoredAny => .done (.panic .todo)
  -- dlhn/src/de.rs:69-122
  | _, .bool => deBool
  | _, .i8 => deI8
  | _, .i16 => deI16
  | _, .i32 => deI32
  | _, .i64 => deI64
  -- serde's defaults (commented out, dlhn/src/de.rs:124-133, 165-170)
  | _, .i128 => .done (.err (.message "i128 is not supported"))
  | _, .u128 => .done (.err (.message "u128 is not supported"))
  -- dlhn/src/de.rs:135-163, 172-237, 246-269
  | _, .u8 => deU8
  | _, .u16 => deU16
  | _, .u32 => deU32
  | _, .u64 => deU64
  | _, .f32 => deF32
  | _, .f64 => deF64
  | _, .char => deChar t
  | _, .string => deString t
  | _, .byteBuf => deByteBuf t
  -- `deserialize_identifier`, dlhn/src/de.rs:370-375
  | _, .identifier => deU16
  -- dlhn/src/de.rs:282-298
  | _, .unit => .done (.ok ())
  | _, .unitStruct _ => .done (.ok ())
  -- `deserialize_option`, dlhn/src/de.rs:271-280
  | _, .option onNone onSome => Prog.bind deBool fun b => if b then onSome.run t else onNone.run t
  -- dlhn/src/de.rs:300-309
  | _, .newtypeStruct _ visit => visit.run t
  -- `deserialize_seq`, dlhn/src/de.rs:311-317
  | _, .seq visit => Prog.bind (io decodeU64) fun count =>
      (visit (t.asUsize count)).run t (t.asUsize count)
  -- dlhn/src/de.rs:319-336
  | _, .tuple len visit => (visit len).run t len
  | _, .tupleStruct _ len visit => (visit len).run t len
  -- `deserialize_map`, dlhn/src/de.rs:338-344
  | _, .map visit => Prog.bind (io decodeU64) fun count =>
      (visit (t.asUsize count)).run t (t.asUsize count)
  -- `deserialize_struct`, dlhn/src/de.rs:346-356
  | _, .struct _ fields visit => visit.run t fields
  -- `deserialize_enum`, dlhn/src/de.rs:358-368, `variant_seed` 508-513
  | _, .enum _ _ seed visit => Prog.bind (seed.run t) fun b => (visit b).run t
/-- `SeqDeserializer` with its counter, dlhn/src/de.rs:390-418. -/
def SeqImpl.run (t : Target) : {α : Type} → SeqImpl α → (count : Nat) → Prog DeErr α
  | _, .ok a, _ => .done (.ok a)
  | _, .error e, _ => .done (.err e)
  | _, .next seed k, count =>
    if count > 0 then Prog.bind (seed.run t) fun b => (k (some b)).run t (count - 1)
    else (k none).run t count
/-- `MapDeserializer` with its counter, dlhn/src/de.rs:420-455. -/
def MapImpl.run (t : Target) : {α : Type} → MapImpl α → (count : Nat) → Prog DeErr α
  | _, .ok a, _ => .done (.ok a)
  | _, .error e, _ => .done (.err e)
  | _, .key seed k, count =>
    if count > 0 then Prog.bind (seed.run t) fun b => (k (some b)).run t (count - 1)
    else (k none).run t count
  | _, .value seed k, count => Prog.bind (seed.run t) fun b => (k b).run t count
/-- `StructDeserializer` with the names left, dlhn/src/de.rs:457-492. -/
def FieldsImpl.run (t : Target) : {α : Type} → FieldsImpl α → (keys : List String) → Prog DeErr α
  | _, .ok a, _ => .done (.ok a)
  | _, .error e, _ => .done (.err e)
  | _, .key k, name :: keys => (k (some name)).run t keys
  | _, .key k, [] => (k none).run t []
  | _, .value seed k, keys => Prog.bind (seed.run t) fun b => (k b).run t keys
/-- `VariantAccess`, dlhn/src/de.rs:516-547. -/
def VariantImpl.run (t : Target) : {α : Type} → VariantImpl α → Prog DeErr α
  | _, .ok a => .done (.ok a)
  | _, .error e => .done (.err e)
  | _, .unit r => ofExcept r
  | _, .newtype seed k => Prog.bind (seed.run t) fun b => ofExcept (k b)
  | _, .tuple len visit k => Prog.bind ((visit len).run t len) fun b => ofExcept (k b)
  | _, .struct fields visit k => Prog.bind (visit.run t fields) fun b => ofExcept (k b)
end

end Dlhn
