import Verif.Model.Ser
import Verif.Model.De
/-!
# Big numbers

`dlhn::{BigUint, BigInt, BigDecimal}` and the modules `format::{big_uint, big_int,
big_decimal}`. The conversions use the crates num-bigint 0.4 and bigdecimal 0.3,
which are not part of /repo; the functions of those crates that dlhn calls are
transcribed here from their documentation and published source and belong to the
trusted base. `num_bigint::BigUint` is `Nat`, `num_bigint::BigInt` is `Int`.
-/
namespace Dlhn

/-! ## `Vec<u8>` as serde sees it: a sequence of `u8`, not bytes -/

/-- The elements of `Vec<u8>`, dlhn/src/ser.rs:268-283. -/
def Ser.serU8s : List UInt8 → WProg SerErr
  | [] => .skip
  | b :: bs => (Ser.serU8 b).andThen (Ser.serU8s bs)

/-- `Vec<u8>::serialize`: `serialize_seq(Some(len))` and the elements,
dlhn/src/ser.rs:205-210, 268-283. -/
def Ser.serVecU8 (bs : List UInt8) : WProg SerErr :=
  (Ser.serLen bs.length).andThen (Ser.serU8s bs)

/-- `Vec<u8>::deserialize`, dlhn/src/de.rs:311-317, 403-418. -/
def De.deVecU8 (t : Target) : Prog DeErr (List UInt8) := do
  let count ← De.io PrefixVarint.decodeU64
  De.times (t.asUsize count) De.deU8

/-! ## num-bigint and bigdecimal -/

namespace Num

/-- `to_bitwise_digits_le(self, 8)` of num-bigint: base-256 digits, least
significant first, without leading zeros. -/
def digits (n : Nat) : List UInt8 :=
  if n = 0 then [] else UInt8.ofNat (n % 256) :: digits (n / 256)
termination_by n

/-- `num_bigint::BigUint::to_bytes_le`. -/
def toBytesLe (n : Nat) : List UInt8 := if n = 0 then [0] else digits n

/-- `num_bigint::BigUint::from_bytes_le`. -/
def fromBytesLe : List UInt8 → Nat
  | [] => 0
  | b :: bs => b.toNat + 256 * fromBytesLe bs

/-- num-bigint's `twos_complement` loop: invert, and add the carry. -/
def twosComplement : Bool → List UInt8 → List UInt8
  | _, [] => []
  | carry, d :: ds =>
    if carry then (~~~d + 1) :: twosComplement (~~~d + 1 == 0) ds
    else (~~~d) :: twosComplement false ds

/-- `num_bigint::BigInt::to_signed_bytes_le`. -/
def toSignedBytesLe (x : Int) : List UInt8 :=
  let bytes := toBytesLe x.natAbs
  let lastByte := bytes.getLast?.getD 0
  let bytes :=
    if lastByte > 0x7f ∧ ¬ (lastByte = 0x80 ∧ bytes.reverse.tail.all (· == 0) = true ∧ x < 0)
    then bytes ++ [0] else bytes
  if x < 0 then twosComplement true bytes else bytes

/-- `num_bigint::BigInt::from_signed_bytes_le`. -/
def fromSignedBytesLe (bs : List UInt8) : Int :=
  match bs.getLast? with
  | none => 0
  | some v =>
    if v > 0x7f then -(fromBytesLe (twosComplement true bs) : Int) else fromBytesLe bs

/-- `bigdecimal::BigDecimal`: `int_val * 10^(-scale)`. -/
structure Decimal where
  intVal : Int
  scale : Int64
  deriving DecidableEq, Repr

/-- Remove trailing decimal zeros: the quotient and how many were removed. -/
def stripZeros (n : Nat) : Nat × Nat :=
  if 0 < n ∧ n % 10 = 0 then
    let (m, k) := stripZeros (n / 10)
    (m, k + 1)
  else (n, 0)
termination_by n

/-- `i64` subtraction with or without overflow checks. -/
def subI64 (mode : BuildMode) (a b : Int64) : Option Int64 :=
  match mode with
  | .debug => if Int64.ofInt (a.toInt - b.toInt) |>.toInt |> (· = a.toInt - b.toInt) then
      some (a - b) else none
  | .release => some (a - b)

/-- `bigdecimal::BigDecimal::normalized`: truncate the trailing zero digits and
lower the scale accordingly (`self.scale - trailing_count as i64`). -/
def Decimal.normalized (mode : BuildMode) (v : Decimal) : Option Decimal :=
  if v.intVal = 0 then some ⟨0, 0⟩
  else
    let (m, k) := stripZeros v.intVal.natAbs
    match subI64 mode v.scale (Int64.ofNat k) with
    | none => none
    | some scale => some ⟨v.intVal.sign * m, scale⟩

end Num

/-! ## `dlhn::BigUint` -/

/-- dlhn/src/big_uint.rs:10-11. -/
structure BigUint where
  bytes : List UInt8
  deriving DecidableEq, Repr

namespace BigUint

/-- `From<num_bigint::BigUint>`, dlhn/src/big_uint.rs:14-22. -/
def ofNum (v : Nat) : BigUint := if v = 0 then ⟨[]⟩ else ⟨Num.toBytesLe v⟩
/-- `Into<num_bigint::BigUint>`, dlhn/src/big_uint.rs:25-29. -/
def toNum (b : BigUint) : Nat := Num.fromBytesLe b.bytes
/-- `Serialize`, dlhn/src/big_uint.rs:31-42: `serialize_seq(None)` writes no
length, then the `Vec<u8>`. -/
def ser (b : BigUint) : WProg SerErr := (Ser.serHint none).andThen (Ser.serVecU8 b.bytes)
/-- `Deserialize`, dlhn/src/big_uint.rs:46-71. -/
def de (t : Target) : Prog DeErr BigUint := do
  let v ← De.deVecU8 t
  pure ⟨v⟩
/-- Derived `Ord`, dlhn/src/big_uint.rs:10: lexicographic on the bytes. -/
def lt (a b : BigUint) : Bool := decide (a.bytes < b.bytes)

end BigUint

/-! ## `dlhn::BigInt` -/

/-- dlhn/src/big_int.rs:10-11. -/
structure BigInt where
  bytes : List UInt8
  deriving DecidableEq, Repr

namespace BigInt

/-- `From<num_bigint::BigInt>`, dlhn/src/big_int.rs:14-22. -/
def ofNum (v : Int) : BigInt := if v = 0 then ⟨[]⟩ else ⟨Num.toSignedBytesLe v⟩
/-- `Into<num_bigint::BigInt>`, dlhn/src/big_int.rs:25-29. -/
def toNum (b : BigInt) : Int := Num.fromSignedBytesLe b.bytes
/-- `Serialize`, dlhn/src/big_int.rs:31-42. -/
def ser (b : BigInt) : WProg SerErr := (Ser.serHint none).andThen (Ser.serVecU8 b.bytes)
/-- `Deserialize`, dlhn/src/big_int.rs:46-71. -/
def de (t : Target) : Prog DeErr BigInt := do
  let v ← De.deVecU8 t
  pure ⟨v⟩
/-- Derived `Ord`, dlhn/src/big_int.rs:10: lexicographic on the bytes. -/
def lt (a b : BigInt) : Bool := decide (a.bytes < b.bytes)

end BigInt

/-! ## `dlhn::BigDecimal` -/

/-- dlhn/src/big_decimal.rs:10-14. -/
structure BigDecimal where
  signedBytes : List UInt8
  scale : Int64
  deriving DecidableEq, Repr

namespace BigDecimal

/-- `From<bigdecimal::BigDecimal>`, dlhn/src/big_decimal.rs:17-32. The error case
is the arithmetic overflow inside `normalized`. -/
def ofNum (mode : BuildMode) (v : Num.Decimal) : Outcome Empty BigDecimal :=
  if v.intVal = 0 then .ok ⟨[], 0⟩
  else match v.normalized mode with
    | none => .panic .overflow
    | some n => .ok ⟨Num.toSignedBytesLe n.intVal, n.scale⟩
/-- `Into<bigdecimal::BigDecimal>`, dlhn/src/big_decimal.rs:35-42. -/
def toNum (b : BigDecimal) : Num.Decimal := ⟨Num.fromSignedBytesLe b.signedBytes, b.scale⟩
/-- `Serialize`, dlhn/src/big_decimal.rs:44-60. -/
def ser (b : BigDecimal) : WProg SerErr :=
  (Ser.serHint none).andThen <|
    if b.signedBytes = [] then Ser.serU8 0
    else (Ser.serVecU8 b.signedBytes).andThen (Ser.serI64 b.scale)
/-- `Deserialize`, dlhn/src/big_decimal.rs:64-101. -/
def de (t : Target) : Prog DeErr BigDecimal := do
  let signedBytes ← De.deVecU8 t
  if signedBytes.isEmpty then
    pure ⟨signedBytes, 0⟩
  else
    let scale ← De.deI64
    pure ⟨signedBytes, scale⟩
/-- Derived `Ord`, dlhn/src/big_decimal.rs:10: the digit bytes lexicographically,
then the scale. -/
def lt (a b : BigDecimal) : Bool :=
  decide (a.signedBytes < b.signedBytes) ||
    (decide (a.signedBytes = b.signedBytes) && decide (a.scale < b.scale))

end BigDecimal

/-! ## The `format` modules -/

namespace Format

/-- `format::big_uint::serialize`, dlhn/src/format/big_uint.rs:30-40. -/
def serBigUint (v : Nat) : WProg SerErr :=
  (Ser.serHint none).andThen <|
    if v = 0 then Ser.serU8 0 else Ser.serVecU8 (Num.toBytesLe v)
/-- `format::big_uint::deserialize`, dlhn/src/format/big_uint.rs:19-28, 42-44. -/
def deBigUint (t : Target) : Prog DeErr Nat := do
  let v ← De.deVecU8 t
  pure (Num.fromBytesLe v)

/-- `format::big_int::serialize`, dlhn/src/format/big_int.rs:30-40. -/
def serBigInt (v : Int) : WProg SerErr :=
  (Ser.serHint none).andThen <|
    if v = 0 then Ser.serU8 0 else Ser.serVecU8 (Num.toSignedBytesLe v)
/-- `format::big_int::deserialize`, dlhn/src/format/big_int.rs:19-28, 42-44. -/
def deBigInt (t : Target) : Prog DeErr Int := do
  let v ← De.deVecU8 t
  pure (Num.fromSignedBytesLe v)

/-- `format::big_decimal::serialize`, dlhn/src/format/big_decimal.rs:41-53. -/
def serBigDecimal (mode : BuildMode) (v : Num.Decimal) : WProg SerErr :=
  (Ser.serHint none).andThen <|
    if v.intVal = 0 then Ser.serU8 0
    else match v.normalized mode with
      | none => .done (.panic .overflow)
      | some n => (Ser.serVecU8 (Num.toSignedBytesLe n.intVal)).andThen (Ser.serI64 n.scale)
/-- `format::big_decimal::deserialize`, dlhn/src/format/big_decimal.rs:20-38, 55-57:
the scale is read only if the decoded digits are not zero. -/
def deBigDecimal (t : Target) : Prog DeErr Num.Decimal := do
  let bytes ← De.deVecU8 t
  let digits := Num.fromSignedBytesLe bytes
  if digits = 0 then
    pure ⟨digits, 0⟩
  else
    let scale ← De.deI64
    pure ⟨digits, scale⟩

end Format
end Dlhn
