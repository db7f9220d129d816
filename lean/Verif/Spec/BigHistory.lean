import Verif.Model.Big
import Mathlib.Data.Nat.Size

/-! # Programs that calculate with `BigUint`s

A program is a list of calls on numbered variables, all of which start as zero. It is run twice: on the model of the
crate (`run`) and on plain natural numbers (`calculate`). The latter says nothing (`none`) when a call is outside what the
operation is meant for. -/

namespace Verif.Spec.BigHistory
open Verif

/-- A call of the public API. The first number of a call that computes a number is the variable it is stored in. -/
inductive Call where
  | fromBeBytes (dst : Nat) (bytes : List U8)
  | fromLeBytes (dst : Nat) (bytes : List U8)
  | fromU128 (dst : Nat) (v : U128)
  | addByte (dst a : Nat) (b : U8)
  | add (dst a b : Nat)
  | sub (dst a b : Nat)
  | rem (dst a b : Nat)
  | shl (dst a k : Nat)
  | shr (dst a k : Nat)
  | update (dst a i : Nat) (set : Bool)
  | bitsUsed (a : Nat)
  | isSet (a i : Nat)
  | cmp (a b : Nat)
  | eq (a b : Nat)
  | toBeBytes (a : Nat)
  | asU128 (a : Nat)

/-- What a call returns to the program, other than a `BigUint`. `as_u128` is `none` when the number does not fit. -/
inductive Seen where
  | number (n : Nat)
  | bool (b : Bool)
  | ordering (o : Ordering)
  | bytes (l : List U8)
  | u128 (v : Option U128)
  deriving DecidableEq

/-- Assignment to a variable. -/
def assign {α : Type} (env : Nat → α) (i : Nat) (a : α) : Nat → α := fun j => if j = i then a else env j

/-- One call on the model: the new variables and what was seen. -/
def step (cap : Nat → Nat) (env : Nat → Model.Big.BigUint) : Call → R ((Nat → Model.Big.BigUint) × List Seen)
  | .fromBeBytes d l => do return (assign env d (← Model.Big.fromBeBytes l), [])
  | .fromLeBytes d l => return (assign env d (Model.Big.fromLeBytes l), [])
  | .fromU128 d v => do return (assign env d (← Model.Big.fromU128 v), [])
  | .addByte d a b => do return (assign env d (← Model.Big.addByte (env a) b), [])
  | .add d a b => do return (assign env d (← Model.Big.add (env a) (env b)), [])
  | .sub d a b => do return (assign env d (← Model.Big.sub cap (env a) (env b)), [])
  | .rem d a b => do return (assign env d (← Model.Big.rem cap (env a) (env b)), [])
  | .shl d a k => return (assign env d (Model.Big.shl (env a) k), [])
  | .shr d a k => do return (assign env d (← Model.Big.shr (env a) k), [])
  | .update d a i b => do return (assign env d (← Model.Big.update (env a) i b), [])
  | .bitsUsed a => do return (env, [.number (← Model.Big.bitsUsed (env a))])
  | .isSet a i => do return (env, [.bool (← Model.Big.isSet (env a) i)])
  | .cmp a b => do return (env, [.ordering (← Model.Big.cmp (env a) (env b))])
  | .eq a b => return (env, [.bool (env a = env b)])
  | .toBeBytes a => return (env, [.bytes (Model.Big.toBeBytes (env a))])
  | .asU128 a => do return (env, [.u128 (← Model.Big.asU128 (env a)).toOption])

/-- A program on the model: all that it sees. -/
def run (cap : Nat → Nat) : (Nat → Model.Big.BigUint) → List Call → R (List Seen)
  | _, [] => return []
  | env, c :: cs => do
    let (env', seen) ← step cap env c
    return seen ++ (← run cap env' cs)

/-- Number of base-256 digits. -/
def byteLength (n : Nat) : Nat := (n.size + 7) / 8

/-- Store a number of at most 2^31 bits. -/
def store (env : Nat → Nat) (d n : Nat) : Option ((Nat → Nat) × List Seen) :=
  if n.size ≤ 2 ^ 31 then some (assign env d n, []) else none

/-- Change of one binary digit. -/
def withBit (n i : Nat) (b : Bool) : Nat := if n.testBit i = b then n else n ^^^ 2 ^ i

/-- One call on natural numbers. -/
def calcStep (env : Nat → Nat) : Call → Option ((Nat → Nat) × List Seen)
  | .fromBeBytes d l => store env d (beVal l)
  | .fromLeBytes d l => store env d (leVal l)
  | .fromU128 d v => store env d v.toNat
  | .addByte d a b => store env d (env a + b.toNat)
  | .add d a b => store env d (env a + env b)
  | .sub d a b => if env b ≤ env a then store env d (env a - env b) else none
  | .rem d a b => if env b ≠ 0 then store env d (env a % env b) else none
  | .shl d a k => if env a ≠ 0 ∨ k < 8 then store env d (env a * 2 ^ k) else none
  | .shr d a k => if k < 8 * (byteLength (env a) + 1) then store env d (env a / 2 ^ k) else none
  | .update d a i b =>
    if i < 8 * byteLength (env a) ∧ byteLength (withBit (env a) i b) = byteLength (env a) then
      store env d (withBit (env a) i b)
    else none
  | .bitsUsed a => some (env, [.number (env a).size])
  | .isSet a i => some (env, [.bool ((env a).testBit i)])
  | .cmp a b => some (env, [.ordering (compare (env a) (env b))])
  | .eq a b => some (env, [.bool (env a = env b)])
  | .toBeBytes a => some (env, [.bytes (natToBE (byteLength (env a)) (env a))])
  | .asU128 a => some (env, [.u128 (if env a < 2 ^ 128 then some (BitVec.ofNat 128 (env a)) else none)])

/-- A program on natural numbers: all that it sees. -/
def calculate : (Nat → Nat) → List Call → Option (List Seen)
  | _, [] => some []
  | env, c :: cs => do
    let (env', seen) ← calcStep env c
    return seen ++ (← calculate env' cs)

end Verif.Spec.BigHistory
