/-!
# Specification of prefix varints, in plain arithmetic

Nothing here mentions the code. `width` is the bit width of the integer type.
-/
namespace Dlhn.Spec

/-- Little-endian base-256 digits of `v`, exactly `n` of them. -/
def leBytes : Nat → Nat → List UInt8
  | 0, _ => []
  | n + 1, v => UInt8.ofNat (v % 256) :: leBytes n (v / 256)

/-- The number a little-endian byte string denotes. -/
def leValue : List UInt8 → Nat
  | [] => 0
  | b :: bs => b.toNat + 256 * leValue bs

/-- Number of 7-bit groups needed for `v`: the least `k ≥ 1` with `v < 2^(7k)`. -/
def groups (v : Nat) : Nat := if v < 128 then 1 else groups (v / 128) + 1
termination_by v

/-- Number of bytes of the encoding of `v` in an integer type of `width` bits. -/
def varintLen (width v : Nat) : Nat := min (groups v) (width / 8 + 1)

/-- The encoding. With `k = groups v` bytes when that is at most `width / 8`: the
first byte has `k - 1` leading ones, a zero, and the low `8 - k` bits of `v`; the
other bits of `v` follow little-endian. Otherwise a marker byte with `width / 8`
leading ones and zeros after, and all of `v` little-endian. -/
def varint (width v : Nat) : List UInt8 :=
  let k := groups v
  if k ≤ width / 8 then
    UInt8.ofNat (256 - 2 ^ (9 - k) + v % 2 ^ (8 - k)) :: leBytes (k - 1) (v / 2 ^ (8 - k))
  else
    UInt8.ofNat (256 - 2 ^ (8 - width / 8)) :: leBytes (width / 8) v

/-- Number of leading one bits of a byte. -/
def leadingOnes (b : UInt8) : Nat :=
  ((List.range 8).takeWhile fun i => b.toNat.testBit (7 - i)).length

/-- Number of bytes following first byte `b` in the encoding of an integer of
`width` bits. -/
def extraBytes (width : Nat) (b : UInt8) : Nat := min (leadingOnes b) (width / 8)

/-- What a byte string denotes as a varint of the given width, and what follows
it; `none` if it is too short. Any form is accepted, shortest or not. -/
def varintDecode (width : Nat) : List UInt8 → Option (Nat × List UInt8)
  | [] => none
  | b :: bs =>
    let n := extraBytes width b
    if bs.length < n then none
    else if leadingOnes b < width / 8 then
      some (b.toNat % 2 ^ (7 - n) + 2 ^ (7 - n) * leValue (bs.take n), bs.drop n)
    else
      some (leValue (bs.take n), bs.drop n)

end Dlhn.Spec
