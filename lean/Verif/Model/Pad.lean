import Verif.Basic

/-! # Model of `src/pad.rs` (block padding) -/

namespace Verif.Model.Pad
open Verif

/-- `BitPadding::<N>::pad`, src/pad.rs:6-15. The three statements of the body (zero block, copy of the
input, marker at `len`) are given position by position. The Rust index `new_block[partial_block.len()]`
is in range because of the check. -/
def bitPad (N : Nat) (p : List U8) : R (Vector U8 N) :=
  if N ≤ p.length then .error .explicit
  else
    .ok (Vector.ofFn fun i =>
      if h : i.val < p.length then p[i.val] else if i.val = p.length then 0x80#8 else 0#8)

/-- Rust `iter().rposition(pred)`: index of the last element satisfying `pred`. Used at src/pad.rs:20 and
src/big/uint.rs:43. -/
def rposition {α : Type} (pred : α → Bool) : List α → Option Nat
  | [] => none
  | x :: xs =>
    match rposition pred xs with
    | some i => some (i + 1)
    | none => if pred x then some 0 else none

/-- `BitPadding::<N>::unpad`, src/pad.rs:17-25. -/
def bitUnpad (N : Nat) (block : Vector U8 N) : R (Vector U8 N × Nat) :=
  match rposition (· == 0x80#8) block.toList with
  | none => .error .unwrap
  | some len => .ok (Vector.ofFn fun i => if i.val < len then block[i] else 0#8, len)

/-- `PkcsPadding::<N>::pad`, src/pad.rs:31-43. `(N - len) as u8` truncates, as in Rust. -/
def pkcsPad (N : Nat) (p : List U8) : R (Vector U8 N) :=
  if N ≤ p.length then .error .explicit
  else
    .ok (Vector.ofFn fun i =>
      if h : i.val < p.length then p[i.val] else BitVec.ofNat 8 (N - p.length))

/-- `PkcsPadding::<N>::unpad`, src/pad.rs:45-51. `block[N-1]` overflows for `N = 0`. -/
def pkcsUnpad (N : Nat) (block : Vector U8 N) : R Nat :=
  if h : 0 < N then
    let amt := block[N - 1]
    if N < amt.toNat then .error .explicit else .ok (N - amt.toNat)
  else .error .overflow

end Verif.Model.Pad
