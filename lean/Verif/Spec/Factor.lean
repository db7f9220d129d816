import Verif.Basic

/-! # Factoring a modulus with both exponents

The method of Miller: with `k = e d - 1` the numbers `a^(k / 2^j) - 1` are tried for a common factor with the modulus. -/

namespace Verif.Spec.Factor

/-- A factor of `n` that is neither 1 nor `n`, from the two exponents and a base `a`, if this base gives one. (A program would
calculate the power modulo `n`, with the same common factors.) -/
def factorFrom (n e d a : Nat) : Option Nat :=
  let k := e * d - 1
  let exponents := ((List.range (k.log2 + 1)).filter fun j => 2 ^ j ∣ k).map fun j => k / 2 ^ j
  (Nat.gcd a n :: exponents.map fun i => Nat.gcd (a ^ i - 1) n).find? fun g => 1 < g ∧ g < n

end Verif.Spec.Factor
