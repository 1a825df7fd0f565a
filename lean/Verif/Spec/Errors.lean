import Verif.Model.De
import Verif.Model.Ser
import Verif.Spec.DeriveDe
/-!
# Specification: which errors there are

The errors of decoding fall into three kinds (the texts of messages do not matter):
bad or missing data (`Read`), no character where one is expected (`CharSize`), and
what a type itself rejects (`Message`).
-/
namespace Dlhn.Spec

/-- The kinds of errors a type can have. -/
inductive Fault where
  | read
  | charSize
  | message
  deriving DecidableEq

/-- The errors of a kind. `UnsupportedKeyType` is of no kind. -/
def Fault.Is : Fault → DeErr → Prop
  | .read, e => e = .read
  | .charSize, e => e = .charSize
  | .message, e => ∃ s, e = .message s

mutual
/-- Some input is decoded as this type: it does not need what the deserializer does not
support, nor an enum without variants. -/
def Accepts : Ty → Prop
  | .any | .str | .bytes | .ignoredAny | .i128 | .u128 => False
  | .newtypeStruct _ ty => Accepts ty
  | .tuple ts => AllAccept ts
  | .tupleStruct _ ts => AllAccept ts
  | .struct _ fs => FieldsAccept fs
  | .enum _ vs => SomeVariantAccepts 65536 vs
  | _ => True
def AllAccept : List Ty → Prop
  | [] => True
  | ty :: ts => Accepts ty ∧ AllAccept ts
def FieldsAccept : List (String × Ty) → Prop
  | [] => True
  | (_, ty) :: fs => Accepts ty ∧ FieldsAccept fs
/-- One of the first `n` variants. -/
def SomeVariantAccepts : Nat → List (String × VTy) → Prop
  | n + 1, (_, vt) :: vs => PayloadAccepts vt ∨ SomeVariantAccepts n vs
  | _, _ => False
def PayloadAccepts : VTy → Prop
  | .unit => True
  | .newtype ty => Accepts ty
  | .tuple ts => AllAccept ts
  | .struct fs => FieldsAccept fs
end

mutual
/-- Some input makes decoding a value of this type fail with an error of kind `f`:
anything that takes bytes can lack them, characters can be missing, enums can have an
unknown index and 128-bit integers are always rejected; and so can the parts, if
those before them can be decoded. -/
def Raises (f : Fault) : Ty → Prop
  | .unit | .unitStruct _ => False
  | .any | .str | .bytes | .ignoredAny => False
  | .i128 | .u128 => f = .message
  | .char => f = .read ∨ f = .charSize
  | .option ty => f = .read ∨ Raises f ty
  | .newtypeStruct _ ty => Raises f ty
  | .seq ty => f = .read ∨ Raises f ty
  | .tuple ts => AnyRaises f ts
  | .tupleStruct _ ts => AnyRaises f ts
  | .map kt vt => f = .read ∨ Raises f kt ∨ (Accepts kt ∧ Raises f vt)
  | .struct _ fs => AnyFieldRaises f fs
  | .enum _ vs =>
    f = .read ∨ (f = .message ∧ vs.length < 65536) ∨ AnyVariantRaises f 65536 vs
  | _ => f = .read
def AnyRaises (f : Fault) : List Ty → Prop
  | [] => False
  | ty :: ts => Raises f ty ∨ (Accepts ty ∧ AnyRaises f ts)
def AnyFieldRaises (f : Fault) : List (String × Ty) → Prop
  | [] => False
  | (_, ty) :: fs => Raises f ty ∨ (Accepts ty ∧ AnyFieldRaises f fs)
/-- One of the first `n` variants. -/
def AnyVariantRaises (f : Fault) : Nat → List (String × VTy) → Prop
  | n + 1, (_, vt) :: vs => PayloadRaises f vt ∨ AnyVariantRaises f n vs
  | _, _ => False
def PayloadRaises (f : Fault) : VTy → Prop
  | .unit => False
  | .newtype ty => Raises f ty
  | .tuple ts => AnyRaises f ts
  | .struct fs => AnyFieldRaises f fs
end

/-- The parts of a Rust type that check what they decode and report a message: enums, and
the calendar types that only have values within a range. -/
def CheckingPart : RTy → Prop
  | .enum _ _ | .timeDate | .offsetDateTime => True
  | _ => False

/-- The fields of a struct. -/
def ownFields : RTy → List RField
  | .struct _ fields => declared fields
  | _ => []

/-- The parts of a Rust type that keep it from compiling with `#[derive(Deserialize)]`: unions,
types without an implementation, and fields that are skipped but have no default. -/
def NotCompiling (env : Derive.Env) : RTy → Prop
  | .union _ | .foreign => True
  | T => ∃ f ∈ ownFields T, SkippedDe (fieldAttrs f) ∧ env.dflt (fieldAttrs f) (fieldType f) = none

/-! ## Serialization -/

/-- What `serialize` has against a map key. -/
def keyFaults : Val → List SerErr
  | .str _ => []
  | .i128 _ => [.message "i128 is not supported"]
  | .u128 _ => [.message "u128 is not supported"]
  | _ => [.unsupportedKeyType]

mutual
/-- What `serialize` has against a value, in the order of its parts. -/
def faults : Val → List SerErr
  | .i128 _ => [.message "i128 is not supported"]
  | .u128 _ => [.message "u128 is not supported"]
  | .some v => faults v
  | .newtypeStruct _ v => faults v
  | .newtypeVariant _ _ _ v => faults v
  | .seq _ vs => allFaults vs
  | .tuple vs => allFaults vs
  | .tupleStruct _ vs => allFaults vs
  | .tupleVariant _ _ _ vs => allFaults vs
  | .map _ es => entriesFaults es
  | .struct _ fs => fieldsFaults fs
  | .structVariant _ _ _ fs => fieldsFaults fs
  | _ => []
def allFaults : List Val → List SerErr
  | [] => []
  | v :: vs => faults v ++ allFaults vs
def entriesFaults : List (Val × Val) → List SerErr
  | [] => []
  | (k, v) :: es => keyFaults k ++ faults v ++ entriesFaults es
def fieldsFaults : List (String × Val) → List SerErr
  | [] => []
  | (_, v) :: fs => faults v ++ fieldsFaults fs
end

end Dlhn.Spec
