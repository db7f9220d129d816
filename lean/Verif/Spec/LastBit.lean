import Verif.Basic
import Mathlib.Data.Nat.Size

/-! # An attacker who learns one bit of each decryption -/

namespace Verif.Spec.LastBit
open Verif

/-- The ciphertexts `c`, `c * 2 ^ e`, `c * 4 ^ e`, ... modulo `n`, from the `first`-th on, as many as the modulus has bits. They
are the ciphertexts of `m`, `2 * m`, `4 * m`, ..., can be made from the public key and do not depend on any answers. -/
def questions (n e c first : Nat) : List Nat :=
  (List.range n.size).map fun k => c * (2 ^ (first + k)) ^ e % n

/-- The answers read as a binary number, the first one as the highest digit. -/
def binary (answers : List Bool) : Nat := answers.foldl (fun a b => 2 * a + b.toNat) 0

/-- What the attacker takes for the message: the fraction of the modulus that the answers are the binary digits of, rounded up. -/
def found (n : Nat) (answers : List Bool) : Nat :=
  (binary answers * n + (2 ^ answers.length - 1)) / 2 ^ answers.length

end Verif.Spec.LastBit
