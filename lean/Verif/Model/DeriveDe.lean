import Verif.Model.Derive
/-!
# `#[derive(Deserialize)]`

Reading a value of a Rust type with `T::deserialize(&mut Deserializer)`: the calls
that serde's impls for the standard types and derived impls make on the
deserializer of dlhn/src/de.rs. The derived code itself is not part of /repo and
belongs to the trusted base.

Not modelled: attributes other than `skip` and `skip_deserializing`. Since dlhn's access
objects define no `size_hint`, serde's impls for `Vec` and maps preallocate nothing.
-/
namespace Dlhn.Derive

/-- What a decoder depends on besides the type. -/
structure Env where
  /-- The value of a field left out when deserializing, `Default::default()` or
  `#[serde(default = "..")]`. `none`: the type has no default, and the derive does
  not compile. -/
  dflt : (attrs : List Attr) → (T : RTy) → Option (Carrier T)
  /-- The iteration order of a `HashMap` built by inserting these entries, which
  depends on the hasher. -/
  order : {α : Type} → List (String × α) → List (String × α)

/-- Whether serde_derive leaves a field or variant out when deserializing:
`#[serde(skip)]` or `#[serde(skip_deserializing)]`. -/
def deSkips (attrs : List Attr) : Bool :=
  attrs.any fun a => a.path == some "serde" &&
    (a.items.getD []).any fun i => i == some "skip" || i == some "skip_deserializing"

/-- `HashMap::insert`: an existing key gets the new value. -/
def hashInsert {α : Type} (k : String) (v : α) : List (String × α) → List (String × α)
  | [] => [(k, v)]
  | (k', v') :: es => if k = k' then (k, v) :: es else (k', v') :: hashInsert k v es

/-- The visitor of a map: entries until `MapDeserializer` has counted down,
dlhn/src/de.rs:338-344, 420-455. -/
def deEntries {α : Type} (t : Target) (p : Prog DeErr α) : Nat → Prog DeErr (List (String × α))
  | 0 => pure []
  | n + 1 => do
    let k ← De.deString t
    let v ← p
    let es ← deEntries t p n
    pure ((k, v) :: es)

/-- `BTreeMap` of the entries read. -/
def collectBTree {α : Type} (es : List (String × α)) : List (String × α) :=
  es.foldl (fun m e => btreeInsert e.1 e.2 m) []

/-- `HashMap` of the entries read. -/
def collectHash {α : Type} (es : List (String × α)) : List (String × α) :=
  es.foldl (fun m e => hashInsert e.1 e.2 m) []

mutual
/-- `T::deserialize(&mut Deserializer)`. -/
def deTy (t : Target) (mode : BuildMode) (env : Env) : (T : RTy) → Prog DeErr (Carrier T)
  -- dlhn/src/de.rs:282-288
  | .unit => pure ()
  -- dlhn/src/de.rs:271-280
  | .option T => do
    if ← De.deBool then
      pure (some (← deTy t mode env T))
    else
      pure none
  | .bool => De.deBool
  | .u8 => De.deU8
  | .u16 => De.deU16
  | .u32 => De.deU32
  | .u64 => De.deU64
  | .i8 => De.deI8
  | .i16 => De.deI16
  | .i32 => De.deI32
  | .i64 => De.deI64
  | .f32 => De.deF32
  | .f64 => De.deF64
  | .bigUint => BigUint.de t
  | .numBigUint => Format.deBigUint t
  | .bigInt => BigInt.de t
  | .numBigInt => Format.deBigInt t
  | .bigDecimal => BigDecimal.de t
  | .numBigDecimal => Format.deBigDecimal t
  -- `deserialize_str`, dlhn/src/de.rs:203-208
  | .str => .done (.panic .todo)
  | .string => De.deString t
  -- `deserialize_bytes`, dlhn/src/de.rs:239-244
  | .bytes => .done (.panic .todo)
  | .byteBuf => De.deByteBuf t
  -- dlhn/src/de.rs:311-317, 384-418
  | .vec T => do
    let count ← De.deU64
    De.times (t.asUsize count) (deTy t mode env T)
  | .date => Date.de mode
  | .timeDate => Format.deDate mode
  | .dateTime => DateTime.de
  | .offsetDateTime => Format.deDateTime
  -- dlhn/src/de.rs:338-344
  | .btreeMap T => do
    let count ← De.deU64
    let es ← deEntries t (deTy t mode env T) (t.asUsize count)
    pure (collectBTree es)
  | .hashMap T => do
    let count ← De.deU64
    let es ← deEntries t (deTy t mode env T) (t.asUsize count)
    pure (env.order (collectHash es))
  -- dlhn/src/de.rs:319-325
  | .tuple Ts => deTuple t mode env Ts
  -- `deserialize_struct` with the names of the fields that are not left out; the
  -- keys come from that list, dlhn/src/de.rs:346-356, 457-492
  | .struct _ (.named fs) => deFields t mode env fs
  -- `deserialize_tuple_struct`, dlhn/src/de.rs:327-336
  | .struct _ (.unnamed []) => pure ()
  -- `deserialize_newtype_struct`, dlhn/src/de.rs:300-309; the attributes of the
  -- field are not looked at
  | .struct _ (.unnamed [.mk _ _ T]) => do
    let v ← deTy t mode env T
    pure (v, ())
  | .struct _ (.unnamed (f :: g :: fs)) => deFields t mode env (f :: g :: fs)
  -- `deserialize_unit_struct`, dlhn/src/de.rs:290-298
  | .struct _ .unit => pure ()
  -- dlhn/src/de.rs:358-375, 494-519: the index is read as a `u16`
  | .enum _ vs => do
    let i ← De.deU16
    deVariant t mode env i.toNat i.toNat vs
  -- Not a type with a `Deserialize` impl known here.
  | .union _ => .done (.err (.message "union"))
  | .foreign => .done (.err (.message "foreign type"))
/-- Members in order. -/
def deTuple (t : Target) (mode : BuildMode) (env : Env) :
    (Ts : List RTy) → Prog DeErr (TupleCarrier Ts)
  | [] => pure ()
  | T :: Ts => do
    let v ← deTy t mode env T
    let vs ← deTuple t mode env Ts
    pure (v, vs)
/-- Fields in order; those left out get their default. -/
def deFields (t : Target) (mode : BuildMode) (env : Env) :
    (fs : List RField) → Prog DeErr (FieldCarrier fs)
  | [] => pure ()
  | .mk attrs _ T :: fs =>
    if deSkips attrs then
      match env.dflt attrs T with
      | some v => do
        let vs ← deFields t mode env fs
        pure (v, vs)
      | none => .done (.err (.message "no Default"))
    else do
      let v ← deTy t mode env T
      let vs ← deFields t mode env fs
      pure (v, vs)
/-- The derived visitor of an enum: the index counts the variants that are not
left out; an unknown index is an error that tells it and the number of these variants, which is
what the index exceeds what is left of it by. Then `unit_variant`, `newtype_variant`,
`tuple_variant` or `struct_variant`, dlhn/src/de.rs:521-547. -/
def deVariant (t : Target) (mode : BuildMode) (env : Env) (i : Nat) :
    Nat → (vs : List RVariant) → Prog DeErr (VariantsCarrier vs)
  | n, [] => .done (.err (unknownVariant i (i - n)))
  | n, .mk attrs _ fields :: vs =>
    if deSkips attrs then do
      let v ← deVariant t mode env i n vs
      pure (.inr v)
    else match n with
      | 0 => do
        let v ← dePayload t mode env fields
        pure (.inl v)
      | n + 1 => do
        let v ← deVariant t mode env i n vs
        pure (.inr v)
/-- The fields of a variant. -/
def dePayload (t : Target) (mode : BuildMode) (env : Env) :
    (fields : RFields) → Prog DeErr (FieldsCarrier fields)
  | .named fs => deFields t mode env fs
  | .unnamed fs => deFields t mode env fs
  | .unit => pure ()
end

end Dlhn.Derive
