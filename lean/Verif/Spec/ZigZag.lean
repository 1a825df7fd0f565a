/-! # Specification of zigzag numbering: 0, -1, 1, -2, 2, ... -/
namespace Dlhn.Spec

/-- The position of `x` in the enumeration 0, -1, 1, -2, 2, ... -/
def zigzag (x : Int) : Nat := if 0 ≤ x then (2 * x).toNat else (-2 * x - 1).toNat

/-- The integer at position `n` of the enumeration 0, -1, 1, -2, 2, ... -/
def unzigzag (n : Nat) : Int := if n % 2 = 0 then (n / 2 : Nat) else -((n / 2 : Nat) : Int) - 1

end Dlhn.Spec
