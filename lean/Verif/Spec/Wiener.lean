import Mathlib.Data.Nat.Size

/-! # Wiener's method

Finding the two primes of an RSA modulus from the public key alone when the private exponent is small. The continued fraction of
`e / n` has a convergent `K / D` with `e D = g + K (p - 1) (q - 1)` and `g` at most `K`; each convergent gives a candidate for
`(p - 1) (q - 1)` and so for `p + q` and for the primes. -/

namespace Verif.Spec.Wiener

/-- Numerator and denominator of the `k`-th convergent of the continued fraction of `a / b` (the last one from where it ends). -/
def convergent : Nat → Nat → Nat → Nat × Nat
  | 0, a, b => (a / b, 1)
  | k + 1, a, b =>
    if a % b = 0 then (a / b, 1)
    else
      let r := convergent k b (a % b)
      (a / b * r.1 + r.2, r.1)

/-- The solution of `x y = n`, `(x - 1) (y - 1) = phi` with `1 < y ≤ x`, if there is one. -/
def primesFrom (n phi : Nat) : Option (Nat × Nat) :=
  let sum := n + 1 - phi
  let root := Nat.sqrt (sum * sum - 4 * n)
  let x := (sum + root) / 2
  let y := (sum - root) / 2
  if x * y = n ∧ 1 < y ∧ y ≤ x then some (x, y) else none

/-- What the `k`-th convergent of `e / n` gives. -/
def attempt (n e k : Nat) : Option (Nat × Nat) :=
  let c := convergent k e n
  if c.1 = 0 then none else primesFrom n ((e * c.2 - 1) / c.1)

/-- All convergents (there are at most two for each bit of `n`, and one more) until one gives a solution. -/
def attack (n e : Nat) : Option (Nat × Nat) := (List.range (2 * n.size + 1)).findSome? (attempt n e)

end Verif.Spec.Wiener
