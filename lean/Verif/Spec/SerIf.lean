import Verif.Model.SerIf
import Verif.Spec.DeriveDe
/-!
# Specification: fields left out depending on their value
-/
namespace Dlhn.Spec

open Derive (Carrier TupleCarrier FieldCarrier FieldsCarrier VariantsCarrier Cond)

/-- A field has the attribute and its predicate holds. -/
def LeftOut (cond : Cond) (attrs : List Attr) (T : RTy) (v : Carrier T) : Prop :=
  Conditional attrs ∧ cond attrs T v = true

mutual
/-- No field in the value is left out because of its value. -/
def AllKept (cond : Cond) : (T : RTy) → Carrier T → Prop
  | .option _, none => True
  | .option T, some v => AllKept cond T v
  | .vec T, vs => ∀ v ∈ vs, AllKept cond T v
  | .btreeMap T, es => ∀ e ∈ es, AllKept cond T e.2
  | .hashMap T, es => ∀ e ∈ es, AllKept cond T e.2
  | .tuple Ts, vs => TupleKept cond Ts vs
  | .struct _ (.named fs), vs => FieldsKept cond fs vs
  -- the attributes of the field of a newtype are not looked at
  | .struct _ (.unnamed [.mk _ _ T]), vs => AllKept cond T vs.1
  | .struct _ (.unnamed (f :: g :: fs)), vs => FieldsKept cond (f :: g :: fs) vs
  | .enum _ vs, v => VariantKept cond vs v
  | _, _ => True
def TupleKept (cond : Cond) : (Ts : List RTy) → TupleCarrier Ts → Prop
  | [], _ => True
  | T :: Ts, (v, vs) => AllKept cond T v ∧ TupleKept cond Ts vs
def FieldsKept (cond : Cond) : (fs : List RField) → FieldCarrier fs → Prop
  | [], _ => True
  | .mk attrs _ T :: fs, (v, vs) =>
    (Skipped attrs ∨ ¬ LeftOut cond attrs T v ∧ AllKept cond T v) ∧ FieldsKept cond fs vs
def VariantKept (cond : Cond) : (vs : List RVariant) → VariantsCarrier vs → Prop
  | .mk _ _ (.named fs) :: _, .inl v => FieldsKept cond fs v
  | .mk _ _ (.unnamed [.mk attrs _ T]) :: _, .inl v => Skipped attrs ∨ AllKept cond T v.1
  | .mk _ _ (.unnamed (f :: g :: fs)) :: _, .inl v => FieldsKept cond (f :: g :: fs) v
  | .mk _ _ (.unnamed []) :: _, .inl _ => True
  | .mk _ _ .unit :: _, .inl _ => True
  | .mk _ _ _ :: vs, .inr v => VariantKept cond vs v
end

/-- The bytes of the members of a list, one after the other. -/
def EachWritten {α : Type} (W : α → List UInt8 → Prop) : List α → List UInt8 → Prop
  | [], bs => bs = []
  | v :: vs, bs => ∃ b c, W v b ∧ EachWritten W vs c ∧ bs = b ++ c

/-- A length, as it is written (numbers of 64 bits). -/
def lengthBytes (n : Nat) : List UInt8 := varint 64 (n % 2 ^ 64)

mutual
/-- The bytes of a value whose fields are left out if their predicates hold. -/
def WrittenIf (cond : Cond) (mode : BuildMode) : (T : RTy) → Carrier T → List UInt8 → Prop
  | .option _, none, bs => bs = [0]
  | .option T, some v, bs => ∃ b, WrittenIf cond mode T v b ∧ bs = 1 :: b
  | .vec T, vs, bs => ∃ b, EachWritten (WrittenIf cond mode T) vs b ∧
      bs = lengthBytes vs.length ++ b
  | .btreeMap T, es, bs => ∃ b, EachWritten (fun (e : String × Carrier T) c =>
      ∃ d, WrittenIf cond mode T e.2 d ∧ c = lengthBytes (utf8 e.1).length ++ utf8 e.1 ++ d) es b ∧
      bs = lengthBytes es.length ++ b
  | .hashMap T, es, bs => ∃ b, EachWritten (fun (e : String × Carrier T) c =>
      ∃ d, WrittenIf cond mode T e.2 d ∧ c = lengthBytes (utf8 e.1).length ++ utf8 e.1 ++ d) es b ∧
      bs = lengthBytes es.length ++ b
  | .tuple Ts, vs, bs => MembersWritten cond mode Ts vs bs
  | .struct _ (.named fs), vs, bs => FieldsWritten cond mode fs vs bs
  | .struct _ (.unnamed []), _, bs => bs = []
  -- a newtype: the attributes of its field are not looked at
  | .struct _ (.unnamed [.mk _ _ T]), vs, bs => WrittenIf cond mode T vs.1 bs
  | .struct _ (.unnamed (f :: g :: fs)), vs, bs => FieldsWritten cond mode (f :: g :: fs) vs bs
  | .struct _ .unit, _, bs => bs = []
  | .enum _ vs, v, bs => VariantWritten cond mode 0 vs v bs
  -- types without fields
  | T, v, bs => (Derive.ser mode T v).exec = (bs, .ok ())
/-- The members of a tuple. -/
def MembersWritten (cond : Cond) (mode : BuildMode) :
    (Ts : List RTy) → TupleCarrier Ts → List UInt8 → Prop
  | [], _, bs => bs = []
  | T :: Ts, (v, vs), bs => ∃ b c, WrittenIf cond mode T v b ∧ MembersWritten cond mode Ts vs c ∧
      bs = b ++ c
/-- The fields that are neither skipped nor left out. -/
def FieldsWritten (cond : Cond) (mode : BuildMode) :
    (fs : List RField) → FieldCarrier fs → List UInt8 → Prop
  | [], _, bs => bs = []
  | .mk attrs _ T :: fs, (v, vs), bs =>
    (Skipped attrs ∨ LeftOut cond attrs T v) ∧ FieldsWritten cond mode fs vs bs ∨
    ¬ (Skipped attrs ∨ LeftOut cond attrs T v) ∧ ∃ b c, WrittenIf cond mode T v b ∧
      FieldsWritten cond mode fs vs c ∧ bs = b ++ c
/-- The number of the variant, the first being number `i`, and its fields. A skipped variant
is not written. -/
def VariantWritten (cond : Cond) (mode : BuildMode) (i : Nat) :
    (vs : List RVariant) → VariantsCarrier vs → List UInt8 → Prop
  | .mk attrs _ (.named fs) :: _, .inl v, bs => ¬ Skipped attrs ∧
      ∃ b, FieldsWritten cond mode fs v b ∧ bs = varint 32 (i % 2 ^ 32) ++ b
  | .mk attrs _ (.unnamed []) :: _, .inl _, bs => ¬ Skipped attrs ∧ bs = varint 32 (i % 2 ^ 32)
  -- a newtype variant: the predicate of its field is not asked
  | .mk attrs _ (.unnamed [.mk fattrs _ T]) :: _, .inl v, bs => ¬ Skipped attrs ∧
      ∃ b, (Skipped fattrs ∧ b = [] ∨ ¬ Skipped fattrs ∧ WrittenIf cond mode T v.1 b) ∧
        bs = varint 32 (i % 2 ^ 32) ++ b
  | .mk attrs _ (.unnamed (f :: g :: fs)) :: _, .inl v, bs => ¬ Skipped attrs ∧
      ∃ b, FieldsWritten cond mode (f :: g :: fs) v b ∧ bs = varint 32 (i % 2 ^ 32) ++ b
  | .mk attrs _ .unit :: _, .inl _, bs => ¬ Skipped attrs ∧ bs = varint 32 (i % 2 ^ 32)
  | .mk _ _ _ :: vs, .inr v, bs => VariantWritten cond mode (i + 1) vs v bs
end

/-- The fields of two lists together. -/
def together : (pre : List RField) → {post : List RField} → FieldCarrier pre →
    FieldCarrier post → FieldCarrier (pre ++ post)
  | [], _, _, ws => ws
  | .mk _ _ _ :: pre, _, (v, vs), ws => (v, together pre vs ws)

/-- A value of the variant after those of `before`. -/
def afterVariants : (before : List RVariant) → {w : RVariant} → {after : List RVariant} →
    VariantsCarrier (w :: after) → VariantsCarrier (before ++ w :: after)
  | [], _, _, v => v
  | .mk _ _ _ :: before, _, _, v => .inr (afterVariants before v)

end Dlhn.Spec
