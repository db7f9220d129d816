import Mathlib.Data.Nat.Factorial.Basic
import Mathlib.Data.Nat.Sqrt

/-! # Three ways to find the primes of a modulus

They use nothing but the public modulus, and work when the primes are close to each other (P. de Fermat), when one of them is a
little above a product of small numbers (J. Pollard), and when two moduli have a prime in common. -/

namespace Verif.Spec.BadPrimes

/-- Fermat: write `n` as `a² - b²` with one of the `t` smallest numbers `a` whose square is not below `n`; then
`n = (a + b) (a - b)`. -/
def fermat (n t : Nat) : Option (Nat × Nat) :=
  (List.range t).findSome? fun i =>
    let start := if Nat.sqrt n * Nat.sqrt n = n then Nat.sqrt n else Nat.sqrt n + 1
    let a := start + i
    let b := Nat.sqrt (a * a - n)
    if b * b = a * a - n ∧ 1 < a - b then some (a + b, a - b) else none

/-- Pollard: the common factor of `n` with `a^(B!) - 1`. -/
def pollard (n a B : Nat) : Nat := Nat.gcd (a ^ Nat.factorial B - 1) n

/-- The common factor of two moduli. -/
def shared (n n' : Nat) : Nat := Nat.gcd n n'

end Verif.Spec.BadPrimes
