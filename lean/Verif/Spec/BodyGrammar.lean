import Verif.Spec.Body
import Verif.Spec.Grammar
/-!
# Specification: which bytes are read as which body under a header

As Spec/Grammar.lean, for `Body::deserialize`.
-/
namespace Dlhn.Spec

/-- Two numbers: the year relative to 2000 and the zero-based day. Additions wrap, except that
with overflow checks the sums have to be numbers of the type. -/
def DateDenotes (mode : BuildMode) (d : Date) (bs : List UInt8) : Prop :=
  ∃ (y : Int32) (o : UInt16) (l u : List UInt8), bs = l ++ u ∧
    Number 32 (zigzag y.toInt) l ∧ Number 16 o.toNat u ∧
    d.year = y + 2000 ∧ d.ordinal = o + 1 ∧
    (mode = .debug → y.toInt + 2000 < 2 ^ 31 ∧ o.toNat + 1 < 2 ^ 16)

/-- The map collected from entries: ordered by key, of several entries with one key the last. -/
def Collected {α : Type} (es m : List (String × α)) : Prop :=
  Ascending m ∧
    ∀ e, e ∈ m ↔ ∃ before after, es = before ++ e :: after ∧ ∀ x ∈ after, x.1 ≠ e.1

mutual
/-- `BodyDenotes mode room h b bs`: under the header `h` the byte string `bs` stands for the
body `b`. `room n` says that there is memory for a vector of `n` bodies. -/
def BodyDenotes (mode : BuildMode) (room : Nat → Prop) : Header → Body → List UInt8 → Prop
  | .unit, b, bs => b = .unit ∧ bs = []
  | .optional h, b, bs => (b = .none ∧ bs = [0]) ∨
      ∃ c u, b = .some c ∧ bs = 1 :: u ∧ BodyDenotes mode room h c u
  | .boolean, b, bs => (b = .boolean false ∧ bs = [0]) ∨ (b = .boolean true ∧ bs = [1])
  | .uint8, b, bs => ∃ x, b = .uint8 x ∧ bs = [x]
  | .uint16, b, bs => ∃ x : UInt16, b = .uint16 x ∧ Number 16 x.toNat bs
  | .uint32, b, bs => ∃ x : UInt32, b = .uint32 x ∧ Number 32 x.toNat bs
  | .uint64, b, bs => ∃ x : UInt64, b = .uint64 x ∧ Number 64 x.toNat bs
  | .int8, b, bs => ∃ x : Int8, b = .int8 x ∧ bs = [x.toUInt8]
  | .int16, b, bs => ∃ x : Int16, b = .int16 x ∧ Number 16 (zigzag x.toInt) bs
  | .int32, b, bs => ∃ x : Int32, b = .int32 x ∧ Number 32 (zigzag x.toInt) bs
  | .int64, b, bs => ∃ x : Int64, b = .int64 x ∧ Number 64 (zigzag x.toInt) bs
  | .float32, b, bs => ∃ x : UInt32, b = .float32 x ∧ bs = leBytes 4 x.toNat
  | .float64, b, bs => ∃ x : UInt64, b = .float64 x ∧ bs = leBytes 8 x.toNat
  | .bigUInt, b, bs => ∃ v : BigUint, b = .bigUInt v ∧ Prefixed v.bytes bs
  | .bigInt, b, bs => ∃ v : BigInt, b = .bigInt v ∧ Prefixed v.bytes bs
  -- without digits there is no scale
  | .bigDecimal, b, bs => ∃ v : BigDecimal, b = .bigDecimal v ∧
      ((v.signedBytes = [] ∧ v.scale = 0 ∧ Prefixed [] bs) ∨
       (v.signedBytes ≠ [] ∧ ∃ l u, bs = l ++ u ∧ Prefixed v.signedBytes l ∧
          Number 64 (zigzag v.scale.toInt) u))
  | .string, b, bs => ∃ s, b = .string s ∧ Prefixed (utf8 s) bs
  | .binary, b, bs => ∃ body, b = .binary body ∧ Prefixed body bs
  | .array h, b, bs => ∃ cs l u, b = .array cs ∧ bs = l ++ u ∧ Number 64 cs.length l ∧
      Joined (BodyDenotes mode room h) cs u ∧ room cs.length
  | .tuple hs, b, bs => ∃ cs, b = .tuple cs ∧ BodiesDenote mode room hs cs bs ∧ room hs.length
  | .map h, b, bs => ∃ es m l u, b = .map m ∧ Collected es m ∧ bs = l ++ u ∧
      Number 64 es.length l ∧
      Joined (fun e x => ∃ y z, x = y ++ z ∧ Prefixed (utf8 e.1) y ∧
        BodyDenotes mode room h e.2 z) es u
  -- the index as a 32-bit number
  | .enum hs, b, bs => ∃ (i : UInt32) (c : Body) (l u : List UInt8), b = .enum i c ∧ bs = l ++ u ∧
      Number 32 i.toNat l ∧ NthDenotes mode room hs i.toNat c u
  | .date, b, bs => ∃ d, b = .date d ∧ DateDenotes mode d bs
  | .dateTime, b, bs => ∃ (d : DateTime) (l u : List UInt8), b = .dateTime d ∧ bs = l ++ u ∧
      Number 64 (zigzag d.unixTimestamp.toInt) l ∧ Number 32 d.nanosecond.toNat u
/-- Member by member. -/
def BodiesDenote (mode : BuildMode) (room : Nat → Prop) :
    List Header → List Body → List UInt8 → Prop
  | [], cs, bs => cs = [] ∧ bs = []
  | h :: hs, cs, bs => ∃ d ds u x, cs = d :: ds ∧ bs = u ++ x ∧ BodyDenotes mode room h d u ∧
      BodiesDenote mode room hs ds x
/-- Under the member at a position. -/
def NthDenotes (mode : BuildMode) (room : Nat → Prop) :
    List Header → Nat → Body → List UInt8 → Prop
  | [], _, _, _ => False
  | h :: _, 0, b, bs => BodyDenotes mode room h b bs
  | _ :: hs, n + 1, b, bs => NthDenotes mode room hs n b bs
end

/-- A vector of `n` bodies of `size` bytes can be allocated on the target. -/
def Room (t : Target) (size n : Nat) : Prop := n * size < 2 ^ (t.ptr.bits - 1) ∧ n * size ≤ t.memLimit

mutual
/-- The header has no map in it, and with `narrow = false` neither numbers of 16 or 32 bits:
integers, dates and times, nor enums of more than 2^28 variants. -/
def NoMap (narrow : Bool) : Header → Prop
  | .map _ => False
  | .uint16 => narrow
  | .uint32 => narrow
  | .int16 => narrow
  | .int32 => narrow
  | .date => narrow
  | .dateTime => narrow
  | .optional h => NoMap narrow h
  | .array h => NoMap narrow h
  | .tuple hs => AllNoMap narrow hs
  | .enum hs => (narrow ∨ hs.length ≤ 2 ^ 28) ∧ AllNoMap narrow hs
  | _ => True
/-- None of them has. -/
def AllNoMap (narrow : Bool) : List Header → Prop
  | [] => True
  | h :: hs => NoMap narrow h ∧ AllNoMap narrow hs
end

end Dlhn.Spec
