import Verif.Spec.Writers
import Verif.Spec.Derive
/-!
# Specification: how many calls of `write` values of types with derived implementations and
dynamic values take
-/
namespace Dlhn.Spec

mutual
/-- How many calls of `write` a value of the type takes at most, if there is a limit. -/
def maxWritesDerived : RTy → Option Nat
  | .unit => some 0
  | .bool => some 1
  | .u8 => some 1
  | .u16 => some 1
  | .u32 => some 1
  | .u64 => some 1
  | .i8 => some 1
  | .i16 => some 1
  | .i32 => some 1
  | .i64 => some 1
  | .f32 => some 1
  | .f64 => some 1
  -- the length and the text
  | .str => some 2
  | .string => some 2
  | .bytes => some 2
  | .byteBuf => some 2
  -- the year and the day, the seconds and the nanoseconds
  | .date => some 2
  | .timeDate => some 2
  | .dateTime => some 2
  | .offsetDateTime => some 2
  -- the tag and the value
  | .option T => addBound (some 1) (maxWritesDerived T)
  -- only the length if the elements take none
  | .vec T => if maxWritesDerived T = some 0 then some 1 else none
  | .tuple Ts => maxWritesMembers Ts
  | .struct _ (.named fs) => maxWritesDeclared fs
  -- the field of a newtype struct is written even if it is marked
  | .struct _ (.unnamed [.mk _ _ T]) => maxWritesDerived T
  | .struct _ (.unnamed fs) => maxWritesDeclared fs
  | .struct _ .unit => some 0
  -- the index and the fields
  | .enum _ vs => addBound (some 1) (maxWritesDeclaredVariants vs)
  -- the digits of big numbers are written one by one
  | _ => none
/-- Sum over the members. -/
def maxWritesMembers : List RTy → Option Nat
  | [] => some 0
  | T :: Ts => addBound (maxWritesDerived T) (maxWritesMembers Ts)
/-- Sum over the fields that are written. -/
def maxWritesDeclared : List RField → Option Nat
  | [] => some 0
  | .mk attrs _ T :: fs =>
    if Skipped attrs then maxWritesDeclared fs
    else addBound (maxWritesDerived T) (maxWritesDeclared fs)
/-- The variant whose fields take most, of those that can be written. -/
def maxWritesDeclaredVariants : List RVariant → Option Nat
  | [] => some 0
  | .mk attrs _ (.named fs) :: vs =>
    if Skipped attrs then maxWritesDeclaredVariants vs
    else maxBound (maxWritesDeclared fs) (maxWritesDeclaredVariants vs)
  | .mk attrs _ (.unnamed fs) :: vs =>
    if Skipped attrs then maxWritesDeclaredVariants vs
    else maxBound (maxWritesDeclared fs) (maxWritesDeclaredVariants vs)
  | .mk _ _ .unit :: vs => maxWritesDeclaredVariants vs
end

mutual
/-- Types for which every alternative that can be written has values: enums have variants that are
not skipped, and skipped fields have values. -/
def Writable : RTy → Prop
  | .option T => Writable T
  | .tuple Ts => AllWritable Ts
  | .struct _ (.named fs) => FieldsWritable fs
  | .struct _ (.unnamed [.mk _ _ T]) => Writable T
  | .struct _ (.unnamed fs) => FieldsWritable fs
  | .enum _ vs => (∃ v ∈ vs, ¬ Skipped (variantAttrs v)) ∧ VariantsWritable vs
  | _ => True
/-- All members are. -/
def AllWritable : List RTy → Prop
  | [] => True
  | T :: Ts => Writable T ∧ AllWritable Ts
/-- All fields are. -/
def FieldsWritable : List RField → Prop
  | [] => True
  | .mk attrs _ T :: fs =>
    (if Skipped attrs then Nonempty (Derive.Carrier T) else Writable T) ∧ FieldsWritable fs
/-- All variants that are not skipped are. -/
def VariantsWritable : List RVariant → Prop
  | [] => True
  | .mk attrs _ (.named fs) :: vs => (¬ Skipped attrs → FieldsWritable fs) ∧ VariantsWritable vs
  | .mk attrs _ (.unnamed fs) :: vs => (¬ Skipped attrs → FieldsWritable fs) ∧ VariantsWritable vs
  | .mk _ _ .unit :: vs => VariantsWritable vs
end

mutual
/-- How many calls of `write` a dynamic value that the header accepts takes at most, if there is a
limit. -/
def maxWritesHeader : Header → Option Nat
  | .unit => some 0
  | .optional h => addBound (some 1) (maxWritesHeader h)
  | .bigUInt => none
  | .bigInt => none
  | .bigDecimal => none
  | .string => some 2
  | .binary => some 2
  | .array h => if maxWritesHeader h = some 0 then some 1 else none
  | .tuple hs => maxWritesHeaders hs
  | .map _ => none
  | .enum hs => addBound (some 1) (maxWritesEither hs)
  | .date => some 2
  | .dateTime => some 2
  | _ => some 1
/-- Sum over the members. -/
def maxWritesHeaders : List Header → Option Nat
  | [] => some 0
  | h :: hs => addBound (maxWritesHeader h) (maxWritesHeaders hs)
/-- The variant that takes most. -/
def maxWritesEither : List Header → Option Nat
  | [] => some 0
  | h :: hs => maxBound (maxWritesHeader h) (maxWritesEither hs)
end

end Dlhn.Spec
