import Verif.Spec.Body
/-!
# Specification of equality

When two dynamic values mean the same: floats as numbers, maps as functions from
keys, everything else literally.
-/
namespace Dlhn.Spec

/-- What an IEEE 754 bit pattern stands for. Finite numbers are counted in units
of the smallest positive one, so they are integers. -/
inductive FloatValue where
  | nan
  | infinite (negative : Bool)
  | finite (units : Int)
  deriving DecidableEq

/-- The format with `e` exponent bits and `m` fraction bits: sign, exponent and
fraction from the most significant bit on. The largest exponent is for infinities
and NaNs, exponent 0 for numbers without the implicit leading one. -/
def floatValue (e m : Nat) (bits : Nat) : FloatValue :=
  let negative := bits / 2 ^ (e + m) % 2 = 1
  let exponent := bits / 2 ^ m % 2 ^ e
  let fraction := bits % 2 ^ m
  if exponent = 2 ^ e - 1 then
    if fraction = 0 then .infinite (decide negative) else .nan
  else
    let magnitude := if exponent = 0 then fraction else (2 ^ m + fraction) * 2 ^ (exponent - 1)
    .finite (if negative then -(magnitude : Int) else magnitude)

/-- What an `f32` with these bits is. -/
def single (bits : UInt32) : FloatValue := floatValue 8 23 bits.toNat
/-- What an `f64` with these bits is. -/
def double (bits : UInt64) : FloatValue := floatValue 11 52 bits.toNat

/-- Equal as numbers: not NaN, and the same. -/
def FloatValue.Equal (x y : FloatValue) : Prop := x ≠ .nan ∧ x = y

/-- Two bodies mean the same. -/
inductive SameBody : Body → Body → Prop where
  | unit : SameBody .unit .unit
  | none : SameBody .none .none
  | some {a b : Body} : SameBody a b → SameBody (.some a) (.some b)
  | boolean (v : Bool) : SameBody (.boolean v) (.boolean v)
  | uint8 (v : UInt8) : SameBody (.uint8 v) (.uint8 v)
  | uint16 (v : UInt16) : SameBody (.uint16 v) (.uint16 v)
  | uint32 (v : UInt32) : SameBody (.uint32 v) (.uint32 v)
  | uint64 (v : UInt64) : SameBody (.uint64 v) (.uint64 v)
  | int8 (v : Int8) : SameBody (.int8 v) (.int8 v)
  | int16 (v : Int16) : SameBody (.int16 v) (.int16 v)
  | int32 (v : Int32) : SameBody (.int32 v) (.int32 v)
  | int64 (v : Int64) : SameBody (.int64 v) (.int64 v)
  | float32 {v w : UInt32} : (single v).Equal (single w) → SameBody (.float32 v) (.float32 w)
  | float64 {v w : UInt64} : (double v).Equal (double w) → SameBody (.float64 v) (.float64 w)
  | bigUInt (v : BigUint) : SameBody (.bigUInt v) (.bigUInt v)
  | bigInt (v : BigInt) : SameBody (.bigInt v) (.bigInt v)
  | bigDecimal (v : BigDecimal) : SameBody (.bigDecimal v) (.bigDecimal v)
  | string (v : String) : SameBody (.string v) (.string v)
  | binary (v : List UInt8) : SameBody (.binary v) (.binary v)
  | array {as bs : List Body} : as.length = bs.length →
      (∀ (i : Nat) (a b : Body), as[i]? = Option.some a → bs[i]? = Option.some b → SameBody a b) →
      SameBody (.array as) (.array bs)
  | tuple {as bs : List Body} : as.length = bs.length →
      (∀ (i : Nat) (a b : Body), as[i]? = Option.some a → bs[i]? = Option.some b → SameBody a b) →
      SameBody (.tuple as) (.tuple bs)
  /-- The same keys, and for each key values that mean the same. -/
  | map {es fs : List (String × Body)} :
      (∀ k, (∃ a, (k, a) ∈ es) ↔ ∃ b, (k, b) ∈ fs) →
      (∀ k a b, (k, a) ∈ es → (k, b) ∈ fs → SameBody a b) → SameBody (.map es) (.map fs)
  | enum (i : UInt32) {a b : Body} : SameBody a b → SameBody (.enum i a) (.enum i b)
  | date (v : Date) : SameBody (.date v) (.date v)
  | dateTime (v : DateTime) : SameBody (.dateTime v) (.dateTime v)

/-- Some float in the body is NaN. -/
def HasNan (b : Body) : Prop :=
  ∃ c ∈ parts b, (∃ v, c = .float32 v ∧ single v = .nan) ∨ ∃ v, c = .float64 v ∧ double v = .nan

/-- Some float in the body is zero, of either sign. -/
def HasZero (b : Body) : Prop :=
  ∃ c ∈ parts b, (∃ v, c = .float32 v ∧ single v = .finite 0) ∨
    ∃ v, c = .float64 v ∧ double v = .finite 0

/-- `==` is equality of what is stored, hence an equivalence; and `<` agrees with it:
of any two values exactly one of `a < b`, `a == b`, `b < a` holds, and `<` is
transitive. -/
def OrderedBy {α : Type} (eq lt : α → α → Bool) : Prop :=
  (∀ a b, eq a b = true ↔ a = b) ∧
  (∀ a b, (lt a b = true ∧ eq a b = false ∧ lt b a = false) ∨
    (lt a b = false ∧ eq a b = true ∧ lt b a = false) ∨
    (lt a b = false ∧ eq a b = false ∧ lt b a = true)) ∧
  ∀ a b c, lt a b = true → lt b c = true → lt a c = true

end Dlhn.Spec
