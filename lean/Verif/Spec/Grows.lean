import Verif.Spec.Body
/-!
# Specification: changes of headers that keep data readable
-/
namespace Dlhn.Spec

/-- Headers of a type before and after a change that keeps its data readable: variants were
appended to enums, and some types were replaced by others with the same bytes. -/
inductive Grows : Header → Header → Prop where
  | same (h : Header) : Grows h h
  | trans {a b c : Header} : Grows a b → Grows b c → Grows a c
  | optional {a b : Header} : Grows a b → Grows (.optional a) (.optional b)
  | array {a b : Header} : Grows a b → Grows (.array a) (.array b)
  | map {a b : Header} : Grows a b → Grows (.map a) (.map b)
  | tuple {as bs : List Header} (hl : as.length = bs.length)
      (h : ∀ (i : Nat) a b, as[i]? = some a → bs[i]? = some b → Grows a b) :
      Grows (.tuple as) (.tuple bs)
  -- those there were, and then others
  | enum {as bs : List Header} (hl : as.length ≤ bs.length)
      (h : ∀ (i : Nat) a b, as[i]? = some a → bs[i]? = some b → Grows a b) :
      Grows (.enum as) (.enum bs)
  | boolean : Grows .boolean .uint8
  | string : Grows .string .binary
  | binary : Grows .binary (.array .uint8)
  | bytes : Grows (.array .uint8) .binary
  -- the bytes 0 and 1 are characters
  | bits : Grows (.array .boolean) .string
  | unit : Grows .unit (.tuple [])
  | empty : Grows (.tuple []) .unit

/-- A value before and after such a change. -/
inductive Retold : Body → Body → Prop where
  | same (b : Body) : Retold b b
  | trans {a b c : Body} : Retold a b → Retold b c → Retold a c
  | some {a b : Body} : Retold a b → Retold (.some a) (.some b)
  | array {as bs : List Body} (hl : as.length = bs.length)
      (h : ∀ (i : Nat) a b, as[i]? = Option.some a → bs[i]? = Option.some b → Retold a b) :
      Retold (.array as) (.array bs)
  -- with the same keys
  | map {as bs : List (String × Body)} (hk : as.map (·.1) = bs.map (·.1))
      (h : ∀ (i : Nat) a b, as[i]? = Option.some a → bs[i]? = Option.some b → Retold a.2 b.2) :
      Retold (.map as) (.map bs)
  | tuple {as bs : List Body} (hl : as.length = bs.length)
      (h : ∀ (i : Nat) a b, as[i]? = Option.some a → bs[i]? = Option.some b → Retold a b) :
      Retold (.tuple as) (.tuple bs)
  -- with the same number of the variant
  | enum {a b : Body} (i : UInt32) : Retold a b → Retold (.enum i a) (.enum i b)
  | boolean (v : Bool) : Retold (.boolean v) (.uint8 (if v then 1 else 0))
  | string (s : String) : Retold (.string s) (.binary (utf8 s))
  | binary (bs : List UInt8) : Retold (.binary bs) (.array (bs.map .uint8))
  | bytes (bs : List UInt8) : Retold (.array (bs.map .uint8)) (.binary bs)
  | bits (vs : List Bool) (s : String) (h : utf8 s = vs.map fun v => if v then 1 else 0) :
      Retold (.array (vs.map .boolean)) (.string s)
  | unit : Retold .unit (.tuple [])
  | empty : Retold (.tuple []) .unit

/-- `u8`. -/
def isByte : Header → Bool
  | .uint8 => true
  | _ => false

/-- `bool`. -/
def isFlag : Header → Bool
  | .boolean => true
  | _ => false

/-- A type that is written as one byte and can be read as `u8`. -/
def oneByte : Header → Bool
  | .uint8 => true
  | .boolean => true
  | _ => false

mutual
/-- A check whether a header has grown to another, for a program that has both. -/
def hasGrown : Header → Header → Bool
  | .unit, .unit => true
  | .unit, .tuple bs => bs.isEmpty
  | .tuple as, .unit => as.isEmpty
  | .boolean, .boolean => true
  | .boolean, .uint8 => true
  | .uint8, .uint8 => true
  | .uint16, .uint16 => true
  | .uint32, .uint32 => true
  | .uint64, .uint64 => true
  | .int8, .int8 => true
  | .int16, .int16 => true
  | .int32, .int32 => true
  | .int64, .int64 => true
  | .float32, .float32 => true
  | .float64, .float64 => true
  | .bigUInt, .bigUInt => true
  | .bigInt, .bigInt => true
  | .bigDecimal, .bigDecimal => true
  | .date, .date => true
  | .dateTime, .dateTime => true
  | .string, .string => true
  | .string, .binary => true
  | .string, .array b => isByte b
  | .binary, .binary => true
  | .binary, .array b => isByte b
  | .array a, .binary => oneByte a
  | .array a, .string => isFlag a
  | .array a, .array b => hasGrown a b
  | .optional a, .optional b => hasGrown a b
  | .map a, .map b => hasGrown a b
  | .tuple as, .tuple bs => allGrown as bs
  | .enum as, .enum bs => variantsGrown as bs
  | _, _ => false
/-- Member by member. -/
def allGrown : List Header → List Header → Bool
  | [], [] => true
  | a :: as, b :: bs => hasGrown a b && allGrown as bs
  | _, _ => false
/-- Variant by variant, and then any others. -/
def variantsGrown : List Header → List Header → Bool
  | [], _ => true
  | a :: as, b :: bs => hasGrown a b && variantsGrown as bs
  | _, _ => false
end

end Dlhn.Spec
