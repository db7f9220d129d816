import Verif.Model.Unwind

/-! # Programs that catch panics -/

namespace Verif.Spec.Unwind
open Verif Verif.Model.Effects
open _root_.Verif.Model.Big (BigUint)

/-- A call on a borrowed `BigUint`. -/
inductive Call where
  | addByte (b : U8)
  | add (y : BigUint)
  | sub (y : BigUint)
  | rem (y : BigUint)
  | shl (k : Nat)
  | shr (k : Nat)
  | update (i : Nat) (set : Bool)

/-- The call on the number in memory, write by write. -/
def Call.mutate (cap : Nat → Nat) : Call → Eff BigUint Unit
  | addByte b => Model.Unwind.addByte b
  | add y => Model.Unwind.add y
  | sub y => Model.Unwind.subAssign cap y
  | rem y => Model.Unwind.rem cap y
  | shl k => Model.Unwind.shlAssign k
  | shr k => Model.Unwind.shrAssign k
  | update i b => Model.Unwind.update i b

/-- The call as a function: the new number or a panic. -/
def Call.value (cap : Nat → Nat) (x : BigUint) : Call → R BigUint
  | addByte b => Model.Big.addByte x b
  | add y => Model.Big.add x y
  | sub y => Model.Big.subAssign cap x y
  | rem y => Model.Big.rem cap x y
  | shl k => .ok (Model.Big.shl x k)
  | shr k => Model.Big.shr x k
  | update i b => Model.Big.update x i b

/-- A divisor of fewer than 2^29 bytes. -/
def Call.Small : Call → Prop
  | rem y => y.bytes.length < 2 ^ 29
  | _ => True

/-- The number after a history of calls, each inside `catch_unwind`. -/
def caught (cap : Nat → Nat) : List Call → BigUint → BigUint
  | [], x => x
  | c :: cs, x => caught cap cs (Eff.exec (c.mutate cap) x).2

/-- The same history with every call that panics left out. -/
def leftOut (cap : Nat → Nat) : List Call → BigUint → BigUint
  | [], x => x
  | c :: cs, x => match c.value cap x with
    | .ok y => leftOut cap cs y
    | .error _ => leftOut cap cs x

end Verif.Spec.Unwind
