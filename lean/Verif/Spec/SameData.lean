import Verif.Spec.DeriveDe
/-!
# Specification of values that carry the same data

Only the types `RTy`, the values `Carrier T` and the records inside them are taken
from the model.
-/
namespace Dlhn.Spec

open Derive (Carrier TupleCarrier FieldCarrier FieldsCarrier VariantsCarrier)

mutual
/-- `SameData T v w`: the values agree in everything the format keeps. Skipped fields
do not count, nor does the offset of a timestamp, the scale of a decimal without
digits, or which of the representations of a number a `bigdecimal::BigDecimal` has.
Everything else does, and for a `HashMap` also the order of its entries. -/
def SameData : (T : RTy) → Carrier T → Carrier T → Prop
  | .option _, none, none => True
  | .option _, none, some _ => False
  | .option _, some _, none => False
  | .option T, some v, some w => SameData T v w
  | .bigDecimal, v, w => v = w ∨ v.signedBytes = [] ∧ w.signedBytes = []
  | .numBigDecimal, v, w => SameNumber v w
  | .offsetDateTime, v, w => v.instant = w.instant
  | .vec T, vs, ws => Pointwise (SameData T) vs ws
  | .btreeMap T, es, fs => Pointwise (fun e f => e.1 = f.1 ∧ SameData T e.2 f.2) es fs
  | .hashMap T, es, fs => Pointwise (fun e f => e.1 = f.1 ∧ SameData T e.2 f.2) es fs
  | .tuple Ts, vs, ws => SameTuple Ts vs ws
  | .struct _ (.named fs), vs, ws => SameKept fs vs ws
  | .struct _ (.unnamed fs), vs, ws => SameKept fs vs ws
  | .enum _ vs, v, w => SameChoice vs v w
  | _, v, w => v = w
/-- Member by member. -/
def SameTuple : (Ts : List RTy) → TupleCarrier Ts → TupleCarrier Ts → Prop
  | [], _, _ => True
  | T :: Ts, (v, vs), (w, ws) => SameData T v w ∧ SameTuple Ts vs ws
/-- Field by field, without the skipped ones. -/
def SameKept : (fs : List RField) → FieldCarrier fs → FieldCarrier fs → Prop
  | [], _, _ => True
  | .mk attrs _ T :: fs, (v, vs), (w, ws) =>
    (¬ Skipped attrs → SameData T v w) ∧ SameKept fs vs ws
/-- The same variant with the same data. -/
def SameChoice : (vs : List RVariant) → VariantsCarrier vs → VariantsCarrier vs → Prop
  | .mk _ _ (.named fs) :: _, .inl v, .inl w => SameKept fs v w
  | .mk _ _ (.unnamed fs) :: _, .inl v, .inl w => SameKept fs v w
  | .mk _ _ .unit :: _, .inl _, .inl _ => True
  | .mk _ _ _ :: vs, .inr v, .inr w => SameChoice vs v w
  | .mk _ _ _ :: _, .inl _, .inr _ => False
  | .mk _ _ _ :: _, .inr _, .inl _ => False
end

end Dlhn.Spec
