import Verif.Model.Header
import Verif.Spec.Varint
/-!
# Specification of headers

The byte grammar of headers, with literal type codes. Only the type `Header`
itself is taken from the model.
-/
namespace Dlhn.Spec

/-- Type codes of the headers without members. -/
def scalarCode : Header → Option UInt8
  | .unit => some 0
  | .boolean => some 2
  | .uint8 => some 3
  | .uint16 => some 4
  | .uint32 => some 5
  | .uint64 => some 6
  | .int8 => some 8
  | .int16 => some 9
  | .int32 => some 10
  | .int64 => some 11
  | .float32 => some 13
  | .float64 => some 14
  | .bigUInt => some 15
  | .bigInt => some 16
  | .bigDecimal => some 17
  | .string => some 18
  | .binary => some 19
  | .date => some 25
  | .dateTime => some 26
  | _ => none

/-- `cnt` is a varint (in any accepted form) of the number `n`. -/
def IsCount (cnt : List UInt8) (n : Nat) : Prop := varintDecode 16 cnt = some (n, [])

mutual
/-- `HeaderBytes h bs`: the byte string `bs` denotes the header `h`. -/
inductive HeaderBytes : Header → List UInt8 → Prop where
  | scalar (h : Header) (c : UInt8) : scalarCode h = some c → HeaderBytes h [c]
  | optional (h : Header) (bs : List UInt8) : HeaderBytes h bs →
      HeaderBytes (.optional h) (1 :: bs)
  | array (h : Header) (bs : List UInt8) : HeaderBytes h bs → HeaderBytes (.array h) (20 :: bs)
  | map (h : Header) (bs : List UInt8) : HeaderBytes h bs → HeaderBytes (.map h) (23 :: bs)
  | tuple (hs : List Header) (cnt bs : List UInt8) : IsCount cnt hs.length →
      HeadersBytes hs bs → HeaderBytes (.tuple hs) (21 :: (cnt ++ bs))
  | enum (hs : List Header) (cnt bs : List UInt8) : IsCount cnt hs.length →
      HeadersBytes hs bs → HeaderBytes (.enum hs) (24 :: (cnt ++ bs))
/-- Members one after another. -/
inductive HeadersBytes : List Header → List UInt8 → Prop where
  | nil : HeadersBytes [] []
  | cons (h : Header) (hs : List Header) (bs bs' : List UInt8) : HeaderBytes h bs →
      HeadersBytes hs bs' → HeadersBytes (h :: hs) (bs ++ bs')
end

mutual
/-- The canonical bytes of a header: counts in shortest form. -/
def headerWire : Header → List UInt8
  | .optional h => 1 :: headerWire h
  | .array h => 20 :: headerWire h
  | .map h => 23 :: headerWire h
  | .tuple hs => 21 :: (varint 16 hs.length ++ headersWire hs)
  | .enum hs => 24 :: (varint 16 hs.length ++ headersWire hs)
  | h => (scalarCode h).toList
/-- Member-wise. -/
def headersWire : List Header → List UInt8
  | [] => []
  | h :: hs => headerWire h ++ headersWire hs
end

mutual
/-- Every tuple and enum has fewer than 65536 members. -/
def Countable : Header → Prop
  | .optional h => Countable h
  | .array h => Countable h
  | .map h => Countable h
  | .tuple hs => hs.length < 65536 ∧ AllCountable hs
  | .enum hs => hs.length < 65536 ∧ AllCountable hs
  | _ => True
/-- Member-wise. -/
def AllCountable : List Header → Prop
  | [] => True
  | h :: hs => Countable h ∧ AllCountable hs
end

mutual
/-- Nesting depth: 1 for a header without members. -/
def depth : Header → Nat
  | .optional h => depth h + 1
  | .array h => depth h + 1
  | .map h => depth h + 1
  | .tuple hs => depthAll hs + 1
  | .enum hs => depthAll hs + 1
  | _ => 1
/-- Depth of the deepest member. -/
def depthAll : List Header → Nat
  | [] => 0
  | h :: hs => max (depth h) (depthAll hs)
end

end Dlhn.Spec
