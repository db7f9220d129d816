import Verif.Model.Rsa

/-! # RSA with a record of the multiplications

The functions `pow_mod` and `decrypt` of `Model.Rsa` are repeated here with a list that says which of the two calls of
`mul_mod` in the loop was made, in order. -/

namespace Verif.Model.RsaTrace
open Verif Verif.Model.Big Verif.Model.Rsa

/-- The two calls of `mul_mod` in `pow_mod`: src/rsa/mod.rs:179 and 181. -/
inductive Op where
  | multiply
  | square
  deriving DecidableEq, Repr

/-- The loop of `pow_mod`, src/rsa/mod.rs:177-182, with the calls. -/
def powModLoopT (cap : Nat → Nat) (p m : BigUint) : Nat → Nat → BigUint → BigUint → List Op → R (BigUint × List Op)
  | 0, _, r, _, ops => .ok (r, ops)
  | k + 1, i, r, a, ops => do
    let s ← if (← isSet p i) then do .ok (← mulMod cap r a m, ops ++ [.multiply]) else .ok (r, ops)
    let a ← mulMod cap a a m
    powModLoopT cap p m k (i + 1) s.1 a (s.2 ++ [.square])

/-- `pow_mod`, src/rsa/mod.rs:171-184, with the calls. -/
def powModT (cap : Nat → Nat) (a p m : BigUint) : R (BigUint × List Op) := do
  powModLoopT cap p m (← bitsUsed p) 0 (← fromU128 1#128) a []

/-- `RsaEncryption::decrypt`, src/rsa/mod.rs:149-151, with the calls. -/
def decryptT (cap : Nat → Nat) (self : RsaEncryption) (c : BigUint) : R (BigUint × List Op) :=
  powModT cap c self.exponent self.modulo

end Verif.Model.RsaTrace
