import Verif.Model.Big
import Verif.Model.Effects

/-! # The `&mut self` operations of `src/big/uint.rs`, write by write

In `Verif.Model.Big` an operation returns the new number, or a panic and nothing else. But `self` is borrowed: a caller who
catches the panic (`catch_unwind`, or a thread that is joined) still has the number, in the state in which the panic left
it. Here the number is a state that every single write changes, and a panic keeps the writes made before it. -/

namespace Verif.Model.Unwind
open Verif Verif.Model.Effects
open _root_.Verif.Model.Big (BigUint trim addU16 bitsUsed cmp shl shr shlLoop shrLoop)

/-- Code that works on a borrowed `BigUint`: the methods with `&mut self` of src/big/uint.rs:73-299. -/
abbrev Mut (α : Type) := Eff BigUint α

/-- Read `self.bytes`. Used throughout src/big/uint.rs:73-299. -/
def bytes : Mut (List U8) := do return (← get).bytes

/-- Write `self.bytes`, as `push`, `pop`, `splice` and the assignment to an element do. Used throughout
src/big/uint.rs:73-299. -/
def setBytes (l : List U8) : Mut Unit := set (⟨l⟩ : BigUint)

/-- `self.bytes.push(b)`, src/big/uint.rs:124, 144, 146 and 260. -/
def push (b : U8) : Mut Unit := do setBytes ((← bytes) ++ [b])

/-- `self.trim_trailing_zeroes()`, src/big/uint.rs:73-77. The `pop`s are one write: nothing in the loop can panic. -/
def trimM : Mut Unit := do setBytes (trim (← bytes))

/-- The assignment of an element, src/big/uint.rs:133, 162 and 165. -/
def setAt (i : Nat) (b : U8) : Mut Unit := do setBytes ((← bytes).set i b)

/-- `BigUint::update`, src/big/uint.rs:95-109. -/
def update (i : Nat) (set : Bool) : Mut Unit := do
  if (← bytes).isEmpty then throw .explicit
  let byteIdx := i / 8
  if byteIdx ≥ (← bytes).length then throw .explicit
  let bitIdx := i % 8
  let b ← Eff.ofR (idx (← bytes) byteIdx)
  let b' := if set then b ||| (1#8 <<< bitIdx) else b &&& ~~~(1#8 <<< bitIdx)
  setAt byteIdx b'

/-- The loop of `AddAssign<u8>`, src/big/uint.rs:128-135, for `n` elements from `i` on. -/
def addByteLoop (i carry : Nat) : Nat → Mut Unit
  | 0 => pure ()
  | n + 1 => do
    if carry = 0 then return
    let b ← Eff.ofR (idx (← bytes) i)
    let sum ← Eff.ofR (addU16 carry b.toNat)
    setAt i (BitVec.ofNat 8 (sum &&& 0xff))
    addByteLoop (i + 1) ((sum >>> 8) &&& 0xff) n

/-- `AddAssign<u8>::add_assign`, src/big/uint.rs:122-139. -/
def addByte (rhs : U8) : Mut Unit := do
  push 0#8
  addByteLoop 0 rhs.toNat (← bytes).length
  trimM

/-- The pushes of `AddAssign<&BigUint>`, src/big/uint.rs:143-145: `n` times. -/
def pushZeros : Nat → Mut Unit
  | 0 => pure ()
  | n + 1 => do push 0#8; pushZeros n

/-- The loop of `AddAssign<&BigUint>`, src/big/uint.rs:156-164, for `n` indices from `i` on; the final carry. -/
def addLoop (r : List U8) (i carry : Nat) : Nat → Mut Nat
  | 0 => pure carry
  | n + 1 => do
    let sum ← Eff.ofR (addU16 carry (← Eff.ofR (idx (← bytes) i)).toNat)
    let sum ← if i < r.length then Eff.ofR (do addU16 sum (← idx r i).toNat) else pure sum
    setAt i (BitVec.ofNat 8 (sum &&& 0xff))
    addLoop r (i + 1) ((sum >>> 8) &&& 0xff) n

/-- `AddAssign<&BigUint>::add_assign`, src/big/uint.rs:141-169. -/
def add (rhs : BigUint) : Mut Unit := do
  pushZeros (rhs.bytes.length - (← bytes).length)
  push 0#8
  let lLen := (← bytes).length
  let carry ← addLoop rhs.bytes 0 0 (lLen - 1)
  setAt (lLen - 1) (BitVec.ofNat 8 carry)
  trimM

/-- The loop of `sub_assign`, src/big/uint.rs:217-219, for `n` indices from `i` on. -/
def clearLoop (i : Nat) : Nat → Mut Unit
  | 0 => pure ()
  | n + 1 => do update i false; clearLoop (i + 1) n

/-- `SubAssign::sub_assign`, src/big/uint.rs:197-222. -/
def subAssign (cap : Nat → Nat) (rhs : BigUint) : Mut Unit := do
  let curr ← Eff.ofR (bitsUsed (← get))
  let offset ← Eff.ofR (subU (cap ((← bytes).length + 1)) rhs.bytes.length)
  let inv : BigUint := ⟨trim (rhs.bytes.map (~~~ ·) ++ List.replicate offset (~~~0#8))⟩
  addByte 1#8
  add inv
  clearLoop curr ((← Eff.ofR (bitsUsed (← get))) - curr)
  trimM

/-- The loop of `RemAssign`, src/big/uint.rs:245-250: `n` iterations. The number `m` is a local variable, which is gone
after a panic. -/
def remLoop (cap : Nat → Nat) (m : BigUint) : Nat → Mut Unit
  | 0 => pure ()
  | n + 1 => do
    if (← Eff.ofR (cmp m (← get))) ≠ .gt then subAssign cap m
    remLoop cap (← Eff.ofR (shr m 1)) n

/-- `RemAssign::rem_assign`, src/big/uint.rs:234-252. -/
def rem (cap : Nat → Nat) (rhs : BigUint) : Mut Unit := do
  if (← Eff.ofR (bitsUsed rhs)) > (← Eff.ofR (bitsUsed (← get))) then return
  let d ← Eff.ofR (subU (← Eff.ofR (bitsUsed (← get))) (← Eff.ofR (bitsUsed rhs)))
  remLoop cap (shl rhs d) (d + 1)

/-- `ShlAssign::shl_assign`, src/big/uint.rs:254-277. The loop is one write: nothing in it can panic. -/
def shlAssign (rhs : Nat) : Mut Unit := do
  let steps := rhs / 8
  let rhs := rhs - steps * 8
  if rhs > 0 then
    push 0#8
    setBytes (shlLoop rhs (← bytes) 0#8)
    trimM
  if steps > 0 then setBytes (List.replicate steps 0#8 ++ (← bytes))

/-- `ShrAssign::shr_assign`, src/big/uint.rs:279-299. The loop is one write: the indices in it are in range. `splice` checks
its range before it removes anything. -/
def shrAssign (rhs : Nat) : Mut Unit := do
  let steps := rhs / 8
  if rhs ≥ 8 then
    if steps ≤ (← bytes).length then setBytes ((← bytes).drop steps) else throw .index
  let rhs := if rhs ≥ 8 then rhs - steps * 8 else rhs
  if rhs > 0 then
    setBytes (shrLoop rhs (← bytes)).1
    trimM

end Verif.Model.Unwind
