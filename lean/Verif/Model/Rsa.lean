import Verif.Model.Big

/-! # Model of `src/rsa/mod.rs` (keys, encryption, arithmetic)

`cap` is the capacity function of `Verif.Model.Big`. -/

namespace Verif.Model.Rsa
open Verif Verif.Model.Big

/-- `struct PrivateKey`, src/rsa/mod.rs:29-33. -/
structure PrivateKey where
  n : BigUint
  d : BigUint
  deriving DecidableEq, Repr

/-- `struct PublicKey`, src/rsa/mod.rs:35-39. -/
structure PublicKey where
  n : BigUint
  e : BigUint
  deriving DecidableEq, Repr

/-- `u128 as i128`. Used at src/rsa/mod.rs:197 and 205. -/
def asI128 (q : Nat) : Int := if q < 2 ^ 127 then q else (q : Int) - 2 ^ 128
/-- `i128 as u128`. Used at src/rsa/mod.rs:207. -/
def asU128 (t : Int) : Nat := (t % 2 ^ 128).toNat
/-- The result of an `i128` operation (debug profile). Used for src/rsa/mod.rs:197 and 205. -/
def i128 (t : Int) : R Int := if -2 ^ 127 ≤ t ∧ t < 2 ^ 127 then .ok t else .error .overflow
/-- Rust `a / b` on an unsigned type. Used at src/rsa/mod.rs:187 and 195. -/
def divU (a b : Nat) : R Nat := if b = 0 then .error .divZero else .ok (a / b)

/-- `lcm`, src/rsa/mod.rs:186-188. The `gcd` crate is modelled by `Nat.gcd`. -/
def lcm (a b : Nat) : R Nat := do divU (← mulU128 a b) (Nat.gcd a b)

/-- The loop of `inverse`, src/rsa/mod.rs:194-198; the first argument is fuel. -/
def inverseLoop : Nat → Nat → Nat → Int → Int → R (Nat × Int)
  | 0, _, _, _, _ => .error .diverged
  | fuel + 1, r, newR, t, newT =>
    if newR ≠ 0 then do
      let q ← divU r newR
      let newR' ← subU r (← mulU128 q newR)
      let newT' ← i128 (t - (← i128 (asI128 q * newT)))
      inverseLoop fuel newR newR' newT newT'
    else .ok (r, t)

/-- `inverse`, src/rsa/mod.rs:190-208. -/
def inverse (a n : Nat) : R (Option Nat) := do
  let (r, t) ← inverseLoop (a + 1) n a 0 1
  if r ≠ 1 then return none
  let t ← if t < 0 then i128 (t + asI128 n) else .ok t
  return some (asU128 t)

/-- `Result::unwrap`/`Option::unwrap`. Used at src/rsa/mod.rs:44-46 and 146. -/
def unwrapResult {ε α : Type} : Except ε α → R α
  | .ok a => .ok a
  | .error _ => .error .unwrap
/-- `Option::unwrap`, used at src/rsa/mod.rs:51. -/
def unwrapOption {α : Type} : Option α → R α
  | some a => .ok a
  | none => .error .unwrap

/-- `create_keys`, src/rsa/mod.rs:43-61. -/
def createKeys (p q e : BigUint) : R (PrivateKey × PublicKey) := do
  let p := (← unwrapResult (← Big.asU128 p)).toNat
  let q := (← unwrapResult (← Big.asU128 q)).toNat
  let e := (← unwrapResult (← Big.asU128 e)).toNat
  let n ← mulU128 p q
  let l ← lcm (← subU p 1) (← subU q 1)
  let d ← unwrapOption (← inverse e l)
  let n ← fromU128 (BitVec.ofNat 128 n)
  let d ← fromU128 (BitVec.ofNat 128 d)
  let e ← fromU128 (BitVec.ofNat 128 e)
  return (⟨n, d⟩, ⟨n, e⟩)

/-- `struct RsaEncryption`, src/rsa/mod.rs:63-66. -/
structure RsaEncryption where
  exponent : BigUint
  modulo : BigUint
  deriving DecidableEq, Repr

/-- `From<PrivateKey> for RsaEncryption`, src/rsa/mod.rs:68-75. -/
def RsaEncryption.ofPrivate (key : PrivateKey) : RsaEncryption := ⟨key.d, key.n⟩
/-- `From<PublicKey> for RsaEncryption`, src/rsa/mod.rs:77-84. -/
def RsaEncryption.ofPublic (key : PublicKey) : RsaEncryption := ⟨key.e, key.n⟩

/-- The loop of `mul_mod`, src/rsa/mod.rs:159-167; the first argument is fuel. -/
def mulModLoop (cap : Nat → Nat) (m : BigUint) : Nat → BigUint → BigUint → BigUint → R BigUint
  | 0, _, _, _ => .error .diverged
  | fuel + 1, r, a, b => do
    if (← bitsUsed b) ≠ 0 then
      let r ← if (← isSet b 0) then do rem cap (← add r a) m else .ok r
      let a ← rem cap (shl a 1) m
      let b ← shr b 1
      mulModLoop cap m fuel r a b
    else .ok r

/-- `mul_mod`, src/rsa/mod.rs:154-169. -/
def mulMod (cap : Nat → Nat) (a b m : BigUint) : R BigUint := do
  mulModLoop cap m (8 * b.bytes.length + 1) (← fromU128 0#128) a b

/-- The loop of `pow_mod`, src/rsa/mod.rs:177-182: `k` iterations from index `i` on. -/
def powModLoop (cap : Nat → Nat) (p m : BigUint) : Nat → Nat → BigUint → BigUint → R BigUint
  | 0, _, r, _ => .ok r
  | k + 1, i, r, a => do
    let r ← if (← isSet p i) then mulMod cap r a m else .ok r
    let a ← mulMod cap a a m
    powModLoop cap p m k (i + 1) r a

/-- `pow_mod`, src/rsa/mod.rs:171-184. -/
def powMod (cap : Nat → Nat) (a p m : BigUint) : R BigUint := do
  powModLoop cap p m (← bitsUsed p) 0 (← fromU128 1#128) a

/-- `RsaEncryption::encrypt`, src/rsa/mod.rs:135-137. -/
def encrypt (cap : Nat → Nat) (self : RsaEncryption) (m : BigUint) : R BigUint :=
  powMod cap m self.exponent self.modulo

/-- `RsaEncryption::decrypt`, src/rsa/mod.rs:149-151. -/
def decrypt (cap : Nat → Nat) (self : RsaEncryption) (c : BigUint) : R BigUint :=
  powMod cap c self.exponent self.modulo

/-- `trait PaddingScheme`, src/rsa/mod.rs:16-25. The error message of `decode` is a parameter. -/
structure PaddingScheme (ε : Type) where
  encode : List U8 → List U8 → Nat → R (List U8)
  decode : List U8 → List U8 → Nat → R (Except ε (List U8))

/-- `RsaEncryption::encrypt_message`, src/rsa/mod.rs:121-133. -/
def encryptMessage {ε : Type} (cap : Nat → Nat) (self : RsaEncryption) (plaintext : List U8) (padding : PaddingScheme ε) :
    R (List U8) := do
  let m ← padding.encode [] plaintext ((← subU (← bitsUsed self.modulo) 1) / 8 + 1)
  let m ← fromBeBytes m
  if (← cmp m self.modulo) ≠ .lt then throw .assertion
  return toBeBytes (← encrypt cap self m)

/-- `RsaEncryption::decrypt_message`, src/rsa/mod.rs:139-147. -/
def decryptMessage {ε : Type} (cap : Nat → Nat) (self : RsaEncryption) (ciphertext : List U8) (padding : PaddingScheme ε) :
    R (List U8) := do
  let m := List.replicate ciphertext.length 0#8
  let d ← decrypt cap self (← fromBeBytes ciphertext)
  let dec := toBeBytes d
  let start ← subU m.length dec.length
  -- `m[start..].copy_from_slice(&dec)`: the lengths agree because `start = m.len() - dec.len()`
  let m := m.take start ++ dec
  unwrapResult (← padding.decode [] m m.length)

end Verif.Model.Rsa
