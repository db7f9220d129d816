import Verif.Model.Rsa

/-! # The RSA arithmetic with a count of the work done

The functions of `Verif.Model.Big` and `Verif.Model.Rsa` that contain the loops of an RSA operation, written down a second
time in a monad that also counts. `Verif.Proof.Work` shows that forgetting the counts gives back the functions there. -/

namespace Verif.Model.Work
open Verif Verif.Model.Big Verif.Model.Rsa

/-- What is counted: calls of `mul_mod`, calls of `%=` and rounds of its loop (each one comparison, at most one subtraction
and one shift of numbers as long as the dividend). The code is src/rsa/mod.rs:154-184 and src/big/uint.rs. -/
structure Count where
  muls : Nat
  rems : Nat
  steps : Nat
  deriving DecidableEq, Repr

/-- Work done in sequence adds up. No counterpart in the code: it counts src/rsa/mod.rs:154-184. -/
def Count.plus (c d : Count) : Count := ⟨c.muls + d.muls, c.rems + d.rems, c.steps + d.steps⟩

/-- A computation that may panic and counts. No counterpart in the code: it counts src/rsa/mod.rs:154-184. -/
def W (α : Type) : Type := R (α × Count)

/-- Sequencing. No counterpart in the code: it counts src/rsa/mod.rs:154-184. -/
def W.bind {α β : Type} (x : W α) (f : α → W β) : W β :=
  match x with
  | .error e => .error e
  | .ok (a, c) =>
    match f a with
    | .error e => .error e
    | .ok (b, d) => .ok (b, c.plus d)

/-- The monad of counting; no counterpart in the code: it counts src/rsa/mod.rs:154-184. -/
instance : Monad W where
  pure a := .ok (a, ⟨0, 0, 0⟩)
  bind := W.bind

/-- A computation whose work is not counted. No counterpart in the code: it counts src/rsa/mod.rs:154-184. -/
def free {α : Type} (x : R α) : W α :=
  match x with
  | .error e => .error e
  | .ok a => .ok (a, ⟨0, 0, 0⟩)

/-- A call of `mul_mod` happens. src/rsa/mod.rs:154. -/
def tickMul : W Unit := .ok ((), ⟨1, 0, 0⟩)
/-- A call of `%=` happens. src/big/uint.rs:235. -/
def tickRem : W Unit := .ok ((), ⟨0, 1, 0⟩)
/-- A round of the loop of `%=` happens. src/big/uint.rs:245-250. -/
def tickStep : W Unit := .ok ((), ⟨0, 0, 1⟩)

/-- The result without the count. No counterpart in the code: it counts src/rsa/mod.rs:154-184. -/
def erase {α : Type} (x : W α) : R α :=
  match x with
  | .error e => .error e
  | .ok (a, _) => .ok a

/-- The loop of `RemAssign`, src/big/uint.rs:245-250, counting. -/
def remLoopW (cap : Nat → Nat) (x m : BigUint) : Nat → W BigUint
  | 0 => pure x
  | n + 1 => do
    tickStep
    let x ← free (do if (← cmp m x) ≠ .gt then subAssign cap x m else .ok x)
    let m ← free (shr m 1)
    remLoopW cap x m n

/-- `RemAssign::rem_assign`, src/big/uint.rs:234-252, counting. -/
def remW (cap : Nat → Nat) (x rhs : BigUint) : W BigUint := do
  tickRem
  if (← free (bitsUsed rhs)) > (← free (bitsUsed x)) then return x
  let d ← free (do subU (← bitsUsed x) (← bitsUsed rhs))
  remLoopW cap x (shl rhs d) (d + 1)

/-- The loop of `mul_mod`, src/rsa/mod.rs:159-167, counting; the first argument is fuel. -/
def mulModLoopW (cap : Nat → Nat) (m : BigUint) : Nat → BigUint → BigUint → BigUint → W BigUint
  | 0, _, _, _ => free (.error .diverged)
  | fuel + 1, r, a, b => do
    if (← free (bitsUsed b)) ≠ 0 then
      let r ← (do if (← free (isSet b 0)) then remW cap (← free (add r a)) m else pure r : W BigUint)
      let a ← remW cap (shl a 1) m
      let b ← free (shr b 1)
      mulModLoopW cap m fuel r a b
    else pure r

/-- `mul_mod`, src/rsa/mod.rs:154-169, counting. -/
def mulModW (cap : Nat → Nat) (a b m : BigUint) : W BigUint := do
  tickMul
  mulModLoopW cap m (8 * b.bytes.length + 1) (← free (fromU128 0#128)) a b

/-- The loop of `pow_mod`, src/rsa/mod.rs:177-182, counting. -/
def powModLoopW (cap : Nat → Nat) (p m : BigUint) : Nat → Nat → BigUint → BigUint → W BigUint
  | 0, _, r, _ => pure r
  | k + 1, i, r, a => do
    let r ← (do if (← free (isSet p i)) then mulModW cap r a m else pure r : W BigUint)
    let a ← mulModW cap a a m
    powModLoopW cap p m k (i + 1) r a

/-- `pow_mod`, src/rsa/mod.rs:171-184, counting. -/
def powModW (cap : Nat → Nat) (a p m : BigUint) : W BigUint := do
  powModLoopW cap p m (← free (bitsUsed p)) 0 (← free (fromU128 1#128)) a

/-- `RsaEncryption::encrypt`, src/rsa/mod.rs:135-137, counting. -/
def encryptW (cap : Nat → Nat) (self : RsaEncryption) (m : BigUint) : W BigUint :=
  powModW cap m self.exponent self.modulo

/-- `RsaEncryption::decrypt`, src/rsa/mod.rs:149-151, counting. -/
def decryptW (cap : Nat → Nat) (self : RsaEncryption) (c : BigUint) : W BigUint :=
  powModW cap c self.exponent self.modulo

/-- The loop of `inverse`, src/rsa/mod.rs:194-198, with the number of its rounds; the first argument is fuel. -/
def inverseLoopW : Nat → Nat → Nat → Int → Int → R ((Nat × Int) × Nat)
  | 0, _, _, _, _ => .error .diverged
  | fuel + 1, r, newR, t, newT =>
    if newR ≠ 0 then do
      let q ← divU r newR
      let newR' ← subU r (← mulU128 q newR)
      let newT' ← i128 (t - (← i128 (asI128 q * newT)))
      let (x, k) ← inverseLoopW fuel newR newR' newT newT'
      return (x, k + 1)
    else .ok ((r, t), 0)

end Verif.Model.Work
