import Verif.Model.Rsa

/-! # The RSA arithmetic with the length of the longest number

The functions of `Verif.Model.Big` and `Verif.Model.Rsa` that an RSA operation runs through, written down a second time in a
monad that also records how long the longest `Vec<u8>` is that is ever made. (The capacity of a vector that is pushed to may
be larger than its length. At most nine such vectors exist at a time: three in `pow_mod`, three in `mul_mod`, one in
`rem_assign` and one in `sub_assign`, beside the arguments.) `Verif.Proof.Space` shows that forgetting the record gives back
the functions there. -/

namespace Verif.Model.Space
open Verif Verif.Model.Big Verif.Model.Rsa

/-- A computation that may panic and records the length of the longest vector. No counterpart in the code: it measures
src/rsa/mod.rs:154-184. -/
def P (α : Type) : Type := R (α × Nat)

/-- Sequencing. No counterpart in the code: it measures src/rsa/mod.rs:154-184. -/
def P.bind {α β : Type} (x : P α) (f : α → P β) : P β :=
  match x with
  | .error e => .error e
  | .ok (a, n) =>
    match f a with
    | .error e => .error e
    | .ok (b, k) => .ok (b, max n k)

/-- The monad of measuring; no counterpart in the code: it measures src/rsa/mod.rs:154-184. -/
instance : Monad P where
  pure a := .ok (a, 0)
  bind := P.bind

/-- A computation that makes no vector. No counterpart in the code: it measures src/rsa/mod.rs:154-184. -/
def free {α : Type} (x : R α) : P α :=
  match x with
  | .error e => .error e
  | .ok a => .ok (a, 0)

/-- A vector has `n` bytes. No counterpart in the code: it measures src/rsa/mod.rs:154-184. -/
def held (n : Nat) : P Unit := .ok ((), n)

/-- The result without the record. No counterpart in the code: it measures src/rsa/mod.rs:154-184. -/
def erase {α : Type} (x : P α) : R α :=
  match x with
  | .error e => .error e
  | .ok (a, _) => .ok a

/-- `AddAssign<u8>::add_assign`, src/big/uint.rs:122-139: one byte is pushed. -/
def addByteP (x : BigUint) (rhs : U8) : P BigUint := do
  held (x.bytes.length + 1)
  free (addByte x rhs)

/-- `AddAssign<&BigUint>::add_assign`, src/big/uint.rs:141-169: as long as the longer number, and one byte more. -/
def addP (x rhs : BigUint) : P BigUint := do
  held (max x.bytes.length rhs.bytes.length + 1)
  free (add x rhs)

/-- `SubAssign::sub_assign`, src/big/uint.rs:197-222: the complement fills the capacity that was allocated. -/
def subAssignP (cap : Nat → Nat) (x rhs : BigUint) : P BigUint := do
  let curr ← free (bitsUsed x)
  let offset ← free (subU (cap (x.bytes.length + 1)) rhs.bytes.length)
  held (cap (x.bytes.length + 1))
  let inv : BigUint := ⟨trim (rhs.bytes.map (~~~ ·) ++ List.replicate offset (~~~0#8))⟩
  let x ← addByteP x 1#8
  let x ← addP x inv
  free (do
    let x ← clearLoop x curr ((← bitsUsed x) - curr)
    return ⟨trim x.bytes⟩)

/-- `ShlAssign::shl_assign`, src/big/uint.rs:254-277: a byte is pushed unless the number is shifted by whole bytes. -/
def shlP (x : BigUint) (rhs : Nat) : P BigUint := do
  held (x.bytes.length + if rhs % 8 = 0 then 0 else 1)
  held (shl x rhs).bytes.length
  pure (shl x rhs)

/-- The loop of `RemAssign`, src/big/uint.rs:245-250. -/
def remLoopP (cap : Nat → Nat) (x m : BigUint) : Nat → P BigUint
  | 0 => pure x
  | n + 1 => do
    let x ← (do if (← free (cmp m x)) ≠ .gt then subAssignP cap x m else pure x : P BigUint)
    let m ← free (shr m 1)
    remLoopP cap x m n

/-- `RemAssign::rem_assign`, src/big/uint.rs:234-252; the divisor is cloned. -/
def remP (cap : Nat → Nat) (x rhs : BigUint) : P BigUint := do
  if (← free (bitsUsed rhs)) > (← free (bitsUsed x)) then return x
  let d ← free (do subU (← bitsUsed x) (← bitsUsed rhs))
  held rhs.bytes.length
  remLoopP cap x (← shlP rhs d) (d + 1)

/-- The loop of `mul_mod`, src/rsa/mod.rs:159-167; the first argument is fuel. -/
def mulModLoopP (cap : Nat → Nat) (m : BigUint) : Nat → BigUint → BigUint → BigUint → P BigUint
  | 0, _, _, _ => free (.error .diverged)
  | fuel + 1, r, a, b => do
    if (← free (bitsUsed b)) ≠ 0 then
      let r ← (do if (← free (isSet b 0)) then remP cap (← addP r a) m else pure r : P BigUint)
      let a ← remP cap (← shlP a 1) m
      let b ← free (shr b 1)
      mulModLoopP cap m fuel r a b
    else pure r

/-- `mul_mod`, src/rsa/mod.rs:154-169; both factors are cloned. -/
def mulModP (cap : Nat → Nat) (a b m : BigUint) : P BigUint := do
  held a.bytes.length
  held b.bytes.length
  mulModLoopP cap m (8 * b.bytes.length + 1) (← free (fromU128 0#128)) a b

/-- The loop of `pow_mod`, src/rsa/mod.rs:177-182. -/
def powModLoopP (cap : Nat → Nat) (p m : BigUint) : Nat → Nat → BigUint → BigUint → P BigUint
  | 0, _, r, _ => pure r
  | k + 1, i, r, a => do
    let r ← (do if (← free (isSet p i)) then mulModP cap r a m else pure r : P BigUint)
    let a ← mulModP cap a a m
    powModLoopP cap p m k (i + 1) r a

/-- `pow_mod`, src/rsa/mod.rs:171-184; the base is cloned, and `r` starts as one byte. -/
def powModP (cap : Nat → Nat) (a p m : BigUint) : P BigUint := do
  held a.bytes.length
  held 1
  powModLoopP cap p m (← free (bitsUsed p)) 0 (← free (fromU128 1#128)) a

/-- `RsaEncryption::encrypt`, src/rsa/mod.rs:135-137. -/
def encryptP (cap : Nat → Nat) (self : RsaEncryption) (m : BigUint) : P BigUint := powModP cap m self.exponent self.modulo

/-- `RsaEncryption::decrypt`, src/rsa/mod.rs:149-151. -/
def decryptP (cap : Nat → Nat) (self : RsaEncryption) (c : BigUint) : P BigUint := powModP cap c self.exponent self.modulo

end Verif.Model.Space
