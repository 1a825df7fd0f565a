import Verif.Model.De
import Verif.Model.Derive
/-!
# Recursive types

`Ty` and `RTy` are finite trees. A recursive Rust type (`struct Node { value: u8,
next: Option<Box<Node>> }`, `enum Json { Null, Array(Vec<Json>), .. }`) is a family
of definitions that mention each other by name. serde reads and writes `Box<T>`,
`Rc<T>` as `T`. The code run for such a type is the same code of dlhn/src/de.rs and
dlhn_derive/src/lib.rs as for any other type, except that it calls itself; `stack`
is the number of such calls that the call stack has room for.
-/
namespace Dlhn.Rec

open PrefixVarint De

mutual
/-- A type that may mention named types. -/
inductive RecTy where
  /-- A type without names. -/
  | leaf (ty : Ty)
  /-- The type with this name (possibly in a `Box`). -/
  | named (name : String)
  | option (T : RecTy)
  | newtypeStruct (name : String) (T : RecTy)
  | seq (T : RecTy)
  | tuple (Ts : List RecTy)
  | tupleStruct (name : String) (Ts : List RecTy)
  | map (key : Ty) (value : RecTy)
  | struct (name : String) (fields : List (String × RecTy))
  | enum (name : String) (variants : List (String × RecVTy))
/-- Payload of an enum variant. -/
inductive RecVTy where
  | unit
  | newtype (T : RecTy)
  | tuple (Ts : List RecTy)
  | struct (fields : List (String × RecTy))
end

/-- The definition of every named type. -/
abbrev Defs := String → RecTy

/-! ## `T::deserialize(&mut Deserializer)` -/

mutual
/-- The body of `deserialize` for a type, where `call n` is what happens when the
named type `n` is asked for. The cases are those of `De.de`
(dlhn/src/de.rs:271-375). -/
def deBody (t : Target) (call : String → Prog DeErr Val) : RecTy → Prog DeErr Val
  | .leaf ty => de t ty
  | .named n => call n
  -- `deserialize_option`, dlhn/src/de.rs:271-280
  | .option T => do
    if ← deBool then
      pure (.some (← deBody t call T))
    else
      pure .none
  -- dlhn/src/de.rs:300-309
  | .newtypeStruct name T => do pure (.newtypeStruct name (← deBody t call T))
  -- `deserialize_seq`, dlhn/src/de.rs:311-317
  | .seq T => do
    let count ← io decodeU64
    let vs ← times (t.asUsize count) (deBody t call T)
    pure (.seq (some vs.length) vs)
  -- dlhn/src/de.rs:319-336
  | .tuple Ts => do pure (.tuple (← deAll t call Ts))
  | .tupleStruct name Ts => do pure (.tupleStruct name (← deAll t call Ts))
  -- `deserialize_map`, dlhn/src/de.rs:338-344
  | .map kt T => do
    let count ← io decodeU64
    let es ← times (t.asUsize count) do
      let k ← de t kt
      let v ← deBody t call T
      pure (k, v)
    pure (.map (some es.length) es)
  -- `deserialize_struct`, dlhn/src/de.rs:346-356, 457-492
  | .struct name fs => do pure (.struct name (← deFields t call fs))
  -- `deserialize_enum`, dlhn/src/de.rs:358-375, 494-519
  | .enum name vs => do
    let i ← io decodeU16
    deVariant t call name i i.toNat vs
/-- Elements of a tuple in order. -/
def deAll (t : Target) (call : String → Prog DeErr Val) : List RecTy → Prog DeErr (List Val)
  | [] => pure []
  | T :: Ts => do
    let v ← deBody t call T
    let vs ← deAll t call Ts
    pure (v :: vs)
/-- Fields of a struct in order, dlhn/src/de.rs:457-492. -/
def deFields (t : Target) (call : String → Prog DeErr Val) :
    List (String × RecTy) → Prog DeErr (List (String × Val))
  | [] => pure []
  | (n, T) :: fs => do
    let v ← deBody t call T
    let vs ← deFields t call fs
    pure ((n, v) :: vs)
/-- Pick the variant with the given index, dlhn/src/de.rs:494-519. -/
def deVariant (t : Target) (call : String → Prog DeErr Val) (name : String) (i : UInt16) :
    Nat → List (String × RecVTy) → Prog DeErr Val
  | n, [] => .done (.err (unknownVariant i.toNat (i.toNat - n)))
  | n + 1, _ :: vs => deVariant t call name i n vs
  | 0, (vn, vt) :: _ => dePayload t call name i.toUInt32 vn vt
/-- `VariantAccess` methods, dlhn/src/de.rs:521-547. -/
def dePayload (t : Target) (call : String → Prog DeErr Val) (name : String) (i : UInt32)
    (vn : String) : RecVTy → Prog DeErr Val
  | .unit => pure (.unitVariant name i vn)
  | .newtype T => do pure (.newtypeVariant name i vn (← deBody t call T))
  | .tuple Ts => do pure (.tupleVariant name i vn (← deAll t call Ts))
  | .struct fs => do pure (.structVariant name i vn (← deFields t call fs))
end

/-- `Name::deserialize(&mut Deserializer)` with room for `stack` nested calls of
the named types' `deserialize`. -/
def deNamed (t : Target) (defs : Defs) : (stack : Nat) → String → Prog DeErr Val
  | 0, _ => .done (.panic .stackOverflow)
  | stack + 1, n => deBody t (deNamed t defs stack) (defs n)

/-- `T::deserialize` for a type that mentions named types. -/
def deTy (t : Target) (defs : Defs) (stack : Nat) (T : RecTy) : Prog DeErr Val :=
  deBody t (deNamed t defs stack) T

/-! ## `T::serialize_header` -/

/-- A type with an impl of `SerializeHeader` that may mention named types. Only
the fields that reach the header are listed. There is no impl for `Box<T>`, so
recursion passes through `Vec` or a map (dlhn/src/header/ser.rs:13-253). -/
inductive HdrTy where
  /-- A type without names, by the header it writes (C34, C55, C56). -/
  | leaf (h : Header)
  | named (name : String)
  | option (T : HdrTy)
  | vec (T : HdrTy)
  /-- `BTreeMap<String, T>` or `HashMap<String, T>`. -/
  | map (T : HdrTy)
  /-- A tuple, or a derived struct by the types of the fields that are not
  skipped. -/
  | struct (fields : List HdrTy)
  /-- A derived enum, by the field types of each variant. -/
  | enum (variants : List (List HdrTy))

mutual
/-- The body of `serialize_header`, where `call n` is what happens when
`n::serialize_header` is called. dlhn/src/header/ser.rs:19-24, 164-169, 199-234,
dlhn_derive/src/lib.rs:44-66, 154-180. -/
def headerBody (call : String → WProg IoErr) : HdrTy → WProg IoErr
  | .leaf h => h.serialize
  | .named n => call n
  | .option T => (Derive.put [Header.OPTIONAL_CODE]).andThen (headerBody call T)
  | .vec T => (Derive.put [Header.ARRAY_CODE]).andThen (headerBody call T)
  | .map T => (Derive.put [Header.MAP_CODE]).andThen (headerBody call T)
  | .struct Ts =>
    (Derive.put (Derive.TUPLE_CODE :: Derive.countBytes Ts.length)).andThen (headerAll call Ts)
  | .enum vs =>
    (Derive.put (Derive.ENUM_CODE :: Derive.countBytes vs.length)).andThen (headerVariants call vs)
/-- One call per field type. -/
def headerAll (call : String → WProg IoErr) : List HdrTy → WProg IoErr
  | [] => .skip
  | T :: Ts => (headerBody call T).andThen (headerAll call Ts)
/-- One header per variant. -/
def headerVariants (call : String → WProg IoErr) : List (List HdrTy) → WProg IoErr
  | [] => .skip
  | v :: vs => (headerVariant call v).andThen (headerVariants call vs)
/-- No field: unit; one field: its type; more: a tuple, dlhn_derive/src/lib.rs:83-151. -/
def headerVariant (call : String → WProg IoErr) : List HdrTy → WProg IoErr
  | [] => (Derive.put []).andThen (Derive.put [Header.UNIT_CODE])
  | [T] => (Derive.put []).andThen (headerBody call T)
  | T :: U :: Ts =>
    (Derive.put (Derive.TUPLE_CODE :: Derive.countBytes (T :: U :: Ts).length)).andThen
      ((headerBody call T).andThen (headerAll call (U :: Ts)))
end

/-- `Name::serialize_header(writer)` with room for `stack` nested calls of the
named types' `serialize_header`. -/
def headerNamed (defs : String → HdrTy) : (stack : Nat) → String → WProg IoErr
  | 0, _ => .done (.panic .stackOverflow)
  | stack + 1, n => headerBody (headerNamed defs stack) (defs n)

end Dlhn.Rec
