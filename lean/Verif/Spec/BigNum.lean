import Verif.Model.BigNum
import Verif.Spec.Wire
/-!
# Specification of big numbers, in plain arithmetic

Only the records `BigUint`, `BigInt`, `BigDecimal` and `Num.Decimal` are taken
from the model. `leValue` (from `Spec/Varint.lean`) is the number a little-endian
byte string denotes.
-/
namespace Dlhn.Spec

/-- The integer a little-endian two's-complement byte string denotes: with the
top bit set, 256^length is subtracted. -/
def signedValue (bs : List UInt8) : Int :=
  if 128 * 256 ^ bs.length ≤ 256 * leValue bs ∧ bs ≠ [] then
    (leValue bs : Int) - (256 ^ bs.length : Nat)
  else leValue bs

/-- `bs` is a shortest unsigned little-endian byte string for `n`. -/
def ShortestUnsigned (n : Nat) (bs : List UInt8) : Prop :=
  leValue bs = n ∧ ∀ bs', leValue bs' = n → bs.length ≤ bs'.length

/-- `bs` is a shortest two's-complement little-endian byte string for `x`. -/
def ShortestSigned (x : Int) (bs : List UInt8) : Prop :=
  signedValue bs = x ∧ ∀ bs', signedValue bs' = x → bs.length ≤ bs'.length

/-- Two decimals `i * 10^(-s)` denote the same number: they agree when brought to
a common scale. -/
def SameNumber (v w : Num.Decimal) : Prop :=
  ∃ a b : Nat, v.scale.toInt + a = w.scale.toInt + b ∧ v.intVal * 10 ^ a = w.intVal * 10 ^ b

/-- The decimal can be normalised: the number of trailing zeros fits `i64`, and
so does the scale lowered by it. -/
def ScaleFits (v : Num.Decimal) : Prop :=
  v.intVal ≠ 0 → ∀ k : Nat, (10 ^ k : Int) ∣ v.intVal → k < 2 ^ 63 ∧ -2 ^ 63 ≤ v.scale.toInt - k

end Dlhn.Spec
