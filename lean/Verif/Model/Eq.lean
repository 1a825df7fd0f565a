import Verif.Model.Body
/-!
# Equality

The `==` the library offers on dynamic values and headers: the derived
`PartialEq` of dlhn/src/body/mod.rs:6, dlhn/src/header/mod.rs:32 and the number
and time types. A derived `PartialEq` compares the variant and then the fields in
order.
-/
namespace Dlhn

/-- `PartialEq for f32`, used by the derive of dlhn/src/body/mod.rs:6, 20: IEEE
754 equality, on bit patterns. A NaN has all exponent bits set and a nonzero
fraction, and is unequal to everything; the two zeros are equal; otherwise the
bits decide. -/
def f32Eq (a b : UInt32) : Bool :=
  !(decide (0x7f800000 < a &&& 0x7fffffff)) && !(decide (0x7f800000 < b &&& 0x7fffffff)) &&
    (a == b || ((a &&& 0x7fffffff) == 0 && (b &&& 0x7fffffff) == 0))

/-- `PartialEq for f64`, used by the derive of dlhn/src/body/mod.rs:6, 21. -/
def f64Eq (a b : UInt64) : Bool :=
  !(decide (0x7ff0000000000000 < a &&& 0x7fffffffffffffff)) &&
    !(decide (0x7ff0000000000000 < b &&& 0x7fffffffffffffff)) &&
    (a == b || ((a &&& 0x7fffffffffffffff) == 0 && (b &&& 0x7fffffffffffffff) == 0))

namespace BigUint
/-- Derived `PartialEq`, dlhn/src/big_uint.rs:10. -/
def eq (a b : BigUint) : Bool := a.bytes == b.bytes
end BigUint

namespace BigInt
/-- Derived `PartialEq`, dlhn/src/big_int.rs:10. -/
def eq (a b : BigInt) : Bool := a.bytes == b.bytes
end BigInt

namespace BigDecimal
/-- Derived `PartialEq`, dlhn/src/big_decimal.rs:10. -/
def eq (a b : BigDecimal) : Bool := a.signedBytes == b.signedBytes && a.scale == b.scale
end BigDecimal

namespace Date
/-- Derived `PartialEq`, dlhn/src/date.rs:11. -/
def eq (a b : Date) : Bool := a.year == b.year && a.ordinal == b.ordinal
end Date

namespace DateTime
/-- Derived `PartialEq`, dlhn/src/date_time.rs:5. -/
def eq (a b : DateTime) : Bool :=
  a.unixTimestamp == b.unixTimestamp && a.nanosecond == b.nanosecond
end DateTime

namespace Body

mutual
/-- Derived `PartialEq for Body`, dlhn/src/body/mod.rs:6-35. -/
def eq : Body → Body → Bool
  | .unit, x => match x with | .unit => true | _ => false
  | .none, x => match x with | .none => true | _ => false
  | .some a, x => match x with | .some b => eq a b | _ => false
  | .boolean a, x => match x with | .boolean b => a == b | _ => false
  | .uint8 a, x => match x with | .uint8 b => a == b | _ => false
  | .uint16 a, x => match x with | .uint16 b => a == b | _ => false
  | .uint32 a, x => match x with | .uint32 b => a == b | _ => false
  | .uint64 a, x => match x with | .uint64 b => a == b | _ => false
  | .int8 a, x => match x with | .int8 b => a == b | _ => false
  | .int16 a, x => match x with | .int16 b => a == b | _ => false
  | .int32 a, x => match x with | .int32 b => a == b | _ => false
  | .int64 a, x => match x with | .int64 b => a == b | _ => false
  | .float32 a, x => match x with | .float32 b => f32Eq a b | _ => false
  | .float64 a, x => match x with | .float64 b => f64Eq a b | _ => false
  | .bigUInt a, x => match x with | .bigUInt b => a.eq b | _ => false
  | .bigInt a, x => match x with | .bigInt b => a.eq b | _ => false
  | .bigDecimal a, x => match x with | .bigDecimal b => a.eq b | _ => false
  | .string a, x => match x with | .string b => a == b | _ => false
  | .binary a, x => match x with | .binary b => a == b | _ => false
  | .array as, x => match x with | .array bs => eqAll as bs | _ => false
  | .tuple as, x => match x with | .tuple bs => eqAll as bs | _ => false
  | .map es, x => match x with | .map fs => eqEntries es fs | _ => false
  | .enum i a, x => match x with | .enum j b => i == j && eq a b | _ => false
  | .date a, x => match x with | .date b => a.eq b | _ => false
  | .dateTime a, x => match x with | .dateTime b => a.eq b | _ => false
/-- `PartialEq for Vec<Body>`: same length, equal elements. -/
def eqAll : List Body → List Body → Bool
  | [], x => match x with | [] => true | _ => false
  | a :: as, x => match x with | b :: bs => eq a b && eqAll as bs | _ => false
/-- `PartialEq for BTreeMap<String, Body>`: same length, and equal keys and values
in key order. -/
def eqEntries : List (String × Body) → List (String × Body) → Bool
  | [], x => match x with | [] => true | _ => false
  | (k, a) :: es, x => match x with | (l, b) :: fs => k == l && eq a b && eqEntries es fs | _ => false
end

end Body

namespace Header

mutual
/-- Derived `PartialEq for Header`, dlhn/src/header/mod.rs:32-63. -/
def eq : Header → Header → Bool
  | .unit, x => match x with | .unit => true | _ => false
  | .optional a, x => match x with | .optional b => eq a b | _ => false
  | .boolean, x => match x with | .boolean => true | _ => false
  | .uint8, x => match x with | .uint8 => true | _ => false
  | .uint16, x => match x with | .uint16 => true | _ => false
  | .uint32, x => match x with | .uint32 => true | _ => false
  | .uint64, x => match x with | .uint64 => true | _ => false
  | .int8, x => match x with | .int8 => true | _ => false
  | .int16, x => match x with | .int16 => true | _ => false
  | .int32, x => match x with | .int32 => true | _ => false
  | .int64, x => match x with | .int64 => true | _ => false
  | .float32, x => match x with | .float32 => true | _ => false
  | .float64, x => match x with | .float64 => true | _ => false
  | .bigUInt, x => match x with | .bigUInt => true | _ => false
  | .bigInt, x => match x with | .bigInt => true | _ => false
  | .bigDecimal, x => match x with | .bigDecimal => true | _ => false
  | .string, x => match x with | .string => true | _ => false
  | .binary, x => match x with | .binary => true | _ => false
  | .array a, x => match x with | .array b => eq a b | _ => false
  | .tuple as, x => match x with | .tuple bs => eqAll as bs | _ => false
  | .map a, x => match x with | .map b => eq a b | _ => false
  | .enum as, x => match x with | .enum bs => eqAll as bs | _ => false
  | .date, x => match x with | .date => true | _ => false
  | .dateTime, x => match x with | .dateTime => true | _ => false
/-- `PartialEq for Vec<Header>`. -/
def eqAll : List Header → List Header → Bool
  | [], x => match x with | [] => true | _ => false
  | a :: as, x => match x with | b :: bs => eq a b && eqAll as bs | _ => false
end

end Header
end Dlhn
