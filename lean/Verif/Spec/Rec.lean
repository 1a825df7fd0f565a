import Verif.Model.Rec
import Verif.Spec.Wire
/-!
# Specification: the values of recursive types

A value of a named type is a value of its definition in which every value of a
named type is again such a value, of smaller depth. `Deep t defs d n v` says that
`v` is a value of the type `n` nested at most `d` deep.
-/
namespace Dlhn.Spec

open Rec

mutual
/-- The values of a type, given the values of the named types. -/
def HasRec (t : Target) (N : String → Val → Prop) : RecTy → Val → Prop
  | .leaf ty, v => Has t ty v
  | .named n, v => N n v
  | .option T, v => v = .none ∨ ∃ w, v = .some w ∧ HasRec t N T w
  | .newtypeStruct name T, v => ∃ w, v = .newtypeStruct name w ∧ HasRec t N T w
  | .seq T, v => ∃ vs, v = .seq (some vs.length) vs ∧ vs.length < 2 ^ t.ptr.bits ∧
      ∀ w ∈ vs, HasRec t N T w
  | .tuple Ts, v => ∃ vs, v = .tuple vs ∧ HasRecAll t N Ts vs
  | .tupleStruct name Ts, v => ∃ vs, v = .tupleStruct name vs ∧ HasRecAll t N Ts vs
  | .map kt T, v => ∃ es, v = .map (some es.length) es ∧ es.length < 2 ^ t.ptr.bits ∧
      ∀ e ∈ es, Has t kt e.1 ∧ HasRec t N T e.2
  | .struct name fts, v => ∃ fs, v = .struct name fs ∧ HasRecFields t N fts fs
  | .enum name vs, v => HasRecVariant t N name 0 vs v
/-- Member-wise, same length. -/
def HasRecAll (t : Target) (N : String → Val → Prop) : List RecTy → List Val → Prop
  | [], vs => vs = []
  | T :: Ts, vs => ∃ w ws, vs = w :: ws ∧ HasRec t N T w ∧ HasRecAll t N Ts ws
/-- Field-wise, same names in the same order. -/
def HasRecFields (t : Target) (N : String → Val → Prop) :
    List (String × RecTy) → List (String × Val) → Prop
  | [], fs => fs = []
  | (n, T) :: fts, fs =>
    ∃ w ws, fs = (n, w) :: ws ∧ HasRec t N T w ∧ HasRecFields t N fts ws
/-- One of the variants, the first of which has index `k`. -/
def HasRecVariant (t : Target) (N : String → Val → Prop) (name : String) :
    Nat → List (String × RecVTy) → Val → Prop
  | _, [], _ => False
  | k, (vn, vt) :: vs, v =>
    HasRecPayload t N name (UInt32.ofNat k) vn vt v ∨ HasRecVariant t N name (k + 1) vs v
/-- A value of the variant `vn` with index `i`. -/
def HasRecPayload (t : Target) (N : String → Val → Prop) (name : String) (i : UInt32)
    (vn : String) : RecVTy → Val → Prop
  | .unit, v => v = .unitVariant name i vn
  | .newtype T, v => ∃ w, v = .newtypeVariant name i vn w ∧ HasRec t N T w
  | .tuple Ts, v => ∃ vs, v = .tupleVariant name i vn vs ∧ HasRecAll t N Ts vs
  | .struct fts, v => ∃ fs, v = .structVariant name i vn fs ∧ HasRecFields t N fts fs
end

/-- `v` is a value of the named type `n` in which values of named types are nested
at most `d` deep. -/
def Deep (t : Target) (defs : Defs) : (d : Nat) → String → Val → Prop
  | 0, _, _ => False
  | d + 1, n, v => HasRec t (Deep t defs d) (defs n) v

/-- `v` is a value of the named type `n`. -/
def HasNamed (t : Target) (defs : Defs) (n : String) (v : Val) : Prop := ∃ d, Deep t defs d n v

mutual
/-- Types the crate supports in both directions, as `Supported`. -/
def RecSupported : RecTy → Prop
  | .leaf ty => Supported ty
  | .named _ => True
  | .option T => RecSupported T
  | .newtypeStruct _ T => RecSupported T
  | .seq T => RecSupported T
  | .tuple Ts => AllRecSupported Ts
  | .tupleStruct _ Ts => AllRecSupported Ts
  | .map kt T => kt = .string ∧ RecSupported T
  | .struct _ fs => FieldsRecSupported fs
  | .enum _ vs => vs.length ≤ 16384 ∧ VariantsRecSupported vs
/-- All members are supported. -/
def AllRecSupported : List RecTy → Prop
  | [] => True
  | T :: Ts => RecSupported T ∧ AllRecSupported Ts
/-- All fields are supported. -/
def FieldsRecSupported : List (String × RecTy) → Prop
  | [] => True
  | (_, T) :: fs => RecSupported T ∧ FieldsRecSupported fs
/-- All variants are supported. -/
def VariantsRecSupported : List (String × RecVTy) → Prop
  | [] => True
  | (_, vt) :: vs => PayloadRecSupported vt ∧ VariantsRecSupported vs
/-- The payload is supported. -/
def PayloadRecSupported : RecVTy → Prop
  | .unit => True
  | .newtype T => RecSupported T
  | .tuple Ts => AllRecSupported Ts
  | .struct fs => FieldsRecSupported fs
end

mutual
/-- Named types are mentioned only inside an `Option`, a sequence, a map or an
enum. (A cycle of mentions without one of these has no values.) -/
def Guarded : RecTy → Prop
  | .named _ => False
  | .newtypeStruct _ T => Guarded T
  | .tuple Ts => AllGuarded Ts
  | .tupleStruct _ Ts => AllGuarded Ts
  | .struct _ fs => FieldsGuarded fs
  | _ => True
/-- All members are guarded. -/
def AllGuarded : List RecTy → Prop
  | [] => True
  | T :: Ts => Guarded T ∧ AllGuarded Ts
/-- All fields are guarded. -/
def FieldsGuarded : List (String × RecTy) → Prop
  | [] => True
  | (_, T) :: fs => Guarded T ∧ FieldsGuarded fs
end

/-! ## Headers of recursive types -/

mutual
/-- The type mentions the named type `n`. -/
def Mentions (n : String) : HdrTy → Prop
  | .leaf _ => False
  | .named m => m = n
  | .option T => Mentions n T
  | .vec T => Mentions n T
  | .map T => Mentions n T
  | .struct Ts => AnyMentions n Ts
  | .enum vs => VariantMentions n vs
/-- Some member mentions it. -/
def AnyMentions (n : String) : List HdrTy → Prop
  | [] => False
  | T :: Ts => Mentions n T ∨ AnyMentions n Ts
/-- Some field of some variant mentions it. -/
def VariantMentions (n : String) : List (List HdrTy) → Prop
  | [] => False
  | v :: vs => AnyMentions n v ∨ VariantMentions n vs
end

/-- A struct or an enum, as every type with a name is. -/
def IsItem : HdrTy → Prop
  | .struct _ => True
  | .enum _ => True
  | _ => False

/-- A type is endless if unfolding definitions from it need never stop: it belongs
to a family each member of which mentions a member in its definition. A recursive
type is endless, and so is one that contains a recursive type. -/
def Endless (defs : String → HdrTy) (n : String) : Prop :=
  ∃ S : String → Prop, S n ∧ ∀ m, S m → ∃ k, S k ∧ Mentions k (defs m)

mutual
/-- The header of a type, given headers of the named types. -/
def HeaderOf (H : String → Header → Prop) : HdrTy → Header → Prop
  | .leaf h, g => g = h
  | .named n, g => H n g
  | .option T, g => ∃ h, g = .optional h ∧ HeaderOf H T h
  | .vec T, g => ∃ h, g = .array h ∧ HeaderOf H T h
  | .map T, g => ∃ h, g = .map h ∧ HeaderOf H T h
  | .struct Ts, g => ∃ hs, g = .tuple hs ∧ HeadersOf H Ts hs
  | .enum vs, g => ∃ hs, g = .enum hs ∧ VariantHeadersOf H vs hs
/-- Member-wise. -/
def HeadersOf (H : String → Header → Prop) : List HdrTy → List Header → Prop
  | [], hs => hs = []
  | T :: Ts, hs => ∃ g gs, hs = g :: gs ∧ HeaderOf H T g ∧ HeadersOf H Ts gs
/-- One header per variant. -/
def VariantHeadersOf (H : String → Header → Prop) : List (List HdrTy) → List Header → Prop
  | [], hs => hs = []
  | v :: vs, hs => ∃ g gs, hs = g :: gs ∧ VariantHeaderOf H v g ∧ VariantHeadersOf H vs gs
/-- No field: unit; one field: its header; more: a tuple. -/
def VariantHeaderOf (H : String → Header → Prop) : List HdrTy → Header → Prop
  | [], g => g = .unit
  | [T], g => HeaderOf H T g
  | T :: U :: Ts, g => ∃ h hs, g = .tuple (h :: hs) ∧ HeaderOf H T h ∧ HeadersOf H (U :: Ts) hs
end

/-- `h` is the header of the named type `n`, found by unfolding names at most `d`
deep. -/
def HeaderWithin (defs : String → HdrTy) : (d : Nat) → String → Header → Prop
  | 0, _, _ => False
  | d + 1, n, h => HeaderOf (HeaderWithin defs d) (defs n) h

end Dlhn.Spec
