import Verif.Model.Rc2

/-! # The key expansion of RC2 with a record of the table lookups

`PITABLE` is a table in memory that is read at secret places. -/

namespace Verif.Model.Rc2Trace
open Verif Verif.Model.Rc2

/-- First expansion loop, src/rc/rc2.rs:57-59, with the places read. -/
def expand1T (t : Nat) : Nat → Nat → Vector U8 128 → R (Vector U8 128 × List U8)
  | 0, _, l => .ok (l, [])
  | n + 1, i, l => do
    let a ← vidx l (← subU i 1)
    let b ← vidx l (← subU i t)
    let r ← expand1T t n (i + 1) (← vset l i (pi (a + b)))
    .ok (r.1, (a + b) :: r.2)

/-- Second expansion loop, src/rc/rc2.rs:62-64, with the places read. -/
def expand2T (t8 : Nat) : Nat → Vector U8 128 → R (Vector U8 128 × List U8)
  | 0, l => .ok (l, [])
  | i + 1, l => do
    let a ← vidx l (i + 1)
    let b ← vidx l (i + t8)
    let r ← expand2T t8 i (← vset l i (pi (a ^^^ b)))
    .ok (r.1, (a ^^^ b) :: r.2)

/-- `RC2::expand_key`, src/rc/rc2.rs:48-71, with the places of `PITABLE` read, in order. -/
def expandKeyT (key : List U8) (numBits : U16) : R (Vector U16 64 × List U8) := do
  if 128 < key.length then .error .index
  else
    let l : Vector U8 128 := Vector.ofFn fun i => if h : i.val < key.length then key[i.val] else 0#8
    let t := key.length
    let t8 := (numBits.toNat + 7) / 8
    let tm : U8 := 0xff#8 >>> ((0#16 - numBits) &&& 7#16).toNat
    let r1 ← expand1T t (128 - t) t l
    let k ← subU 128 t8
    let p := (← vidx r1.1 k) &&& tm
    let l ← vset r1.1 k (pi p)
    let r2 ← expand2T t8 k l
    .ok (Vector.ofFn fun i => leU16 r2.1[i.val * 2] r2.1[i.val * 2 + 1], r1.2 ++ p :: r2.2)

end Verif.Model.Rc2Trace
