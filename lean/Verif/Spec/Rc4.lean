import Verif.Basic

/-! # The RC4 algorithm as published (Schneier, Applied Cryptography §17.1; draft-kaukonen-cipher-arcfour)

Written over natural numbers and functions, independently of the crate's arrays and bytes. -/

namespace Verif.Spec.Rc4
open Verif

/-- Exchange two entries of a table. -/
def swap (S : Nat → Nat) (a b : Nat) : Nat → Nat :=
  fun k => if k = a then S b else if k = b then S a else S k

/-- Key scheduling after `n` of its 256 steps: table and `j`. -/
def ksa (key : List Nat) : Nat → (Nat → Nat) × Nat
  | 0 => (fun k => k, 0)
  | i + 1 =>
    let (S, j) := ksa key i
    let j' := (j + S i + key.getD (i % key.length) 0) % 256
    (swap S i j', j')

/-- State of the generator: table, `i`, `j`. -/
structure St where
  S : Nat → Nat
  i : Nat
  j : Nat

/-- The generator after `n` output bytes. -/
def after (key : List Nat) : Nat → St
  | 0 => ⟨(ksa key 256).1, 0, 0⟩
  | n + 1 =>
    let s := after key n
    let i := (s.i + 1) % 256
    let j := (s.j + s.S i) % 256
    ⟨swap s.S i j, i, j⟩

/-- Output byte number `n` (counted from 0): `S[(S[i] + S[j]) mod 256]` after the step. -/
def stream (key : List Nat) (n : Nat) : Nat :=
  let s := after key (n + 1)
  s.S ((s.S s.i + s.S s.j) % 256)

end Verif.Spec.Rc4
