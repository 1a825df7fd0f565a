import Verif.Model.Body
import Verif.Spec.Wire
/-!
# Specification of dynamic values

What it means for a body to have the shape a header describes, the bytes of a
body, and the conditions under which bodies exist in memory. Only the types
`Header`, `Body` and the records inside them are taken from the model.
-/
namespace Dlhn.Spec

/-- `Conforms h b`: the body `b` has the shape described by the header `h`. -/
inductive Conforms : Header → Body → Prop where
  | unit : Conforms .unit .unit
  | none (h : Header) : Conforms (.optional h) .none
  | some (h : Header) (b : Body) : Conforms h b → Conforms (.optional h) (.some b)
  | boolean (v : Bool) : Conforms .boolean (.boolean v)
  | uint8 (v : UInt8) : Conforms .uint8 (.uint8 v)
  | uint16 (v : UInt16) : Conforms .uint16 (.uint16 v)
  | uint32 (v : UInt32) : Conforms .uint32 (.uint32 v)
  | uint64 (v : UInt64) : Conforms .uint64 (.uint64 v)
  | int8 (v : Int8) : Conforms .int8 (.int8 v)
  | int16 (v : Int16) : Conforms .int16 (.int16 v)
  | int32 (v : Int32) : Conforms .int32 (.int32 v)
  | int64 (v : Int64) : Conforms .int64 (.int64 v)
  | float32 (v : UInt32) : Conforms .float32 (.float32 v)
  | float64 (v : UInt64) : Conforms .float64 (.float64 v)
  | bigUInt (v : BigUint) : Conforms .bigUInt (.bigUInt v)
  | bigInt (v : BigInt) : Conforms .bigInt (.bigInt v)
  | bigDecimal (v : BigDecimal) : Conforms .bigDecimal (.bigDecimal v)
  | string (v : String) : Conforms .string (.string v)
  | binary (v : List UInt8) : Conforms .binary (.binary v)
  | array (h : Header) (bs : List Body) : (∀ b ∈ bs, Conforms h b) → Conforms (.array h) (.array bs)
  | tuple (hs : List Header) (bs : List Body) : hs.length = bs.length →
      (∀ (i : Nat) (h : Header) (b : Body), hs[i]? = Option.some h → bs[i]? = Option.some b →
        Conforms h b) → Conforms (.tuple hs) (.tuple bs)
  | map (h : Header) (es : List (String × Body)) : (∀ e ∈ es, Conforms h e.2) →
      Conforms (.map h) (.map es)
  | enum (hs : List Header) (i : UInt32) (h : Header) (b : Body) : hs[i.toNat]? = Option.some h →
      Conforms h b → Conforms (.enum hs) (.enum i b)
  | date (v : Date) : Conforms .date (.date v)
  | dateTime (v : DateTime) : Conforms .dateTime (.dateTime v)

/-- The bytes of a date: year relative to 2000 and zero-based day of the year. -/
def dateWire (d : Date) : List UInt8 :=
  varint 32 (zigzag (d.year - 2000).toInt) ++ varint 16 (d.ordinal - 1).toNat

/-- The bytes of a timestamp. -/
def dateTimeWire (d : DateTime) : List UInt8 :=
  varint 64 (zigzag d.unixTimestamp.toInt) ++ varint 32 d.nanosecond.toNat

/-- The bytes of a decimal: no digits is the single byte 0. -/
def decimalWire (v : BigDecimal) : List UInt8 :=
  if v.signedBytes = [] then [0] else block v.signedBytes ++ varint 64 (zigzag v.scale.toInt)

mutual
/-- The bytes of a body. -/
def bodyWire : Body → List UInt8
  | .unit => []
  | .none => [0]
  | .some b => 1 :: bodyWire b
  | .boolean b => [if b then 1 else 0]
  | .uint8 v => [v]
  | .uint16 v => varint 16 v.toNat
  | .uint32 v => varint 32 v.toNat
  | .uint64 v => varint 64 v.toNat
  | .int8 v => [v.toUInt8]
  | .int16 v => varint 16 (zigzag v.toInt)
  | .int32 v => varint 32 (zigzag v.toInt)
  | .int64 v => varint 64 (zigzag v.toInt)
  | .float32 bits => leBytes 4 bits.toNat
  | .float64 bits => leBytes 8 bits.toNat
  | .bigUInt v => block v.bytes
  | .bigInt v => block v.bytes
  | .bigDecimal v => decimalWire v
  | .string s => block (utf8 s)
  | .binary bs => block bs
  | .array bs => varint 64 bs.length ++ bodiesWire bs
  | .tuple bs => bodiesWire bs
  | .map es => varint 64 es.length ++ entriesWire es
  | .enum i b => varint 32 i.toNat ++ bodyWire b
  | .date d => dateWire d
  | .dateTime d => dateTimeWire d
/-- One after another. -/
def bodiesWire : List Body → List UInt8
  | [] => []
  | b :: bs => bodyWire b ++ bodiesWire bs
/-- Keys and values alternate. -/
def entriesWire : List (String × Body) → List UInt8
  | [] => []
  | (k, b) :: es => block (utf8 k) ++ bodyWire b ++ entriesWire es
end

mutual
/-- Headers whose bodies occupy no bytes: units and tuples of such. -/
def ZeroWidth : Header → Prop
  | .unit => True
  | .tuple hs => AllZeroWidth hs
  | _ => False
/-- All of them. -/
def AllZeroWidth : List Header → Prop
  | [] => True
  | h :: hs => ZeroWidth h ∧ AllZeroWidth hs
end

/-! ## Parts -/

mutual
/-- A body and everything inside it. -/
def parts : Body → List Body
  | .some b => .some b :: parts b
  | .array bs => .array bs :: partsAll bs
  | .tuple bs => .tuple bs :: partsAll bs
  | .map es => .map es :: partsEntries es
  | .enum i b => .enum i b :: parts b
  | b => [b]
/-- The parts of all of them. -/
def partsAll : List Body → List Body
  | [] => []
  | b :: bs => parts b ++ partsAll bs
/-- The parts of all values. -/
def partsEntries : List (String × Body) → List Body
  | [] => []
  | (_, b) :: es => parts b ++ partsEntries es
end

mutual
/-- A header and everything inside it. -/
def headerParts : Header → List Header
  | .optional h => .optional h :: headerParts h
  | .array h => .array h :: headerParts h
  | .map h => .map h :: headerParts h
  | .tuple hs => .tuple hs :: headersParts hs
  | .enum hs => .enum hs :: headersParts hs
  | h => [h]
/-- The parts of all of them. -/
def headersParts : List Header → List Header
  | [] => []
  | h :: hs => headerParts h ++ headersParts hs
end

/-! ## Conditions on bodies, each about all parts -/

/-- Lengths inside one body are below the size of the address space. -/
def LengthsFit (t : Target) : Body → Prop
  | .bigUInt v => v.bytes.length < 2 ^ t.ptr.bits
  | .bigInt v => v.bytes.length < 2 ^ t.ptr.bits
  | .bigDecimal v => v.signedBytes.length < 2 ^ t.ptr.bits
  | .string s => (utf8 s).length < 2 ^ t.ptr.bits
  | .binary bs => bs.length < 2 ^ t.ptr.bits
  | .array bs => bs.length < 2 ^ t.ptr.bits
  | .map es => es.length < 2 ^ t.ptr.bits ∧ ∀ e ∈ es, (utf8 e.1).length < 2 ^ t.ptr.bits
  | _ => True

/-- The entries of a `BTreeMap<String, _>`: ascending keys. -/
def Ascending {α : Type} (es : List (String × α)) : Prop := es.Pairwise fun x y => utf8 x.1 < utf8 y.1

/-- What the Rust types guarantee for every body that exists on the target:
lengths fit, and maps are in key order without duplicates. -/
def Exists (t : Target) (b : Body) : Prop :=
  ∀ c ∈ parts b, LengthsFit t c ∧ ∀ es, c = .map es → Ascending es

/-- No decimal in the body stores a scale without digits (see property C48). -/
def CleanDecimals (b : Body) : Prop :=
  ∀ v, .bigDecimal v ∈ parts b → v.signedBytes = [] → v.scale = 0

/-- Rebasing the date does not overflow. -/
def DateFits (d : Date) : Prop := -2 ^ 31 + 2000 ≤ d.year.toInt ∧ 1 ≤ d.ordinal.toNat

/-- In builds with overflow checks, the dates in the body can be rebased (true of
every date converted from a calendar date, see property C49). -/
def DatesFit (mode : BuildMode) (b : Body) : Prop :=
  mode = .debug → ∀ d, .date d ∈ parts b → DateFits d

/-- The memory for the vectors of the body is granted. -/
def VectorsFit (t : Target) (size : Nat) (b : Body) : Prop :=
  ∀ bs, .array bs ∈ parts b ∨ .tuple bs ∈ parts b → t.allocate (bs.length * size) = Option.none

end Dlhn.Spec
