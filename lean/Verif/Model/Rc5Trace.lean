import Verif.Model.Rc5

/-! # Decryption of RC5 with a record of the amounts of the rotations

The words are rotated by amounts that depend on the key and the text. Only the last five bits of an amount matter. -/

namespace Verif.Model.Rc5Trace
open Verif Verif.Model.Rc5

/-- The decryption rounds `n, n-1, .., 1`, src/rc/rc5.rs:72-75, with the amounts of the rotations in order. -/
def decRoundsT (s : List U32) : Nat → U32 × U32 → R ((U32 × U32) × List Nat)
  | 0, ab => .ok (ab, [])
  | i + 1, (a, b) => do
    let n1 := a.toNat % 32
    let b := (b - (← idx s (2 * (i + 1) + 1))).rotateRight a.toNat ^^^ a
    let n2 := b.toNat % 32
    let a := (a - (← idx s (2 * (i + 1)))).rotateRight b.toNat ^^^ b
    let r ← decRoundsT s i (a, b)
    .ok (r.1, n1 :: n2 :: r.2)

/-- `BlockCipher::decrypt` for RC5, src/rc/rc5.rs:96-106 with `decrypt_32`, lines 69-80, and the amounts of the rotations in
order. -/
def decryptT (k : RC5) (p : Vector U8 8) : R (Vector U8 8 × List Nat) := do
  let a := leU32 p[0] p[1] p[2] p[3]
  let b := leU32 p[4] p[5] p[6] p[7]
  let r ← decRoundsT k.s k.r.toNat (a, b)
  let b := r.1.2 - (← idx k.s 1)
  let a := r.1.1 - (← idx k.s 0)
  .ok (joinBlock a b, r.2)

end Verif.Model.Rc5Trace
