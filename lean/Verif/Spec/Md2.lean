import Verif.Basic
import Mathlib.Analysis.SpecialFunctions.Trigonometric.Basic

/-! # MD2 (RFC 1319, with the correction of its errata: the checksum byte is xored, not overwritten) -/

namespace Verif.Spec.Md2
open Verif

/-! ## The table: "a random permutation of 0..255 constructed from the digits of pi" -/

/-- Decimal digit number `i` of π = 3.14159…; digit 0 is 3. -/
noncomputable def piDigit (i : Nat) : Nat := ⌊Real.pi * 10 ^ i⌋₊ % 10

/-- A number below `n` drawn from a sequence of digits: one, two or three digits are read as a number (as many as
`n` needs); a number beyond the largest multiple of `n` is rejected. The first argument bounds the number of tries. -/
def draw (n : Nat) : Nat → List Nat → Nat × List Nat
  | 0, ds => (0, ds)
  | tries + 1, ds =>
    let k := if n ≤ 10 then 1 else if n ≤ 100 then 2 else 3
    let x := (ds.take k).foldl (fun v d => 10 * v + d) 0
    if x < n * (10 ^ k / n) then (x % n, ds.drop k) else draw n tries (ds.drop k)

/-- Exchange two places. -/
def swap (T : List Nat) (i j : Nat) : List Nat := (T.set i (T.getD j 0)).set j (T.getD i 0)

/-- The Fisher–Yates shuffle of `0 .. 255` driven by the digits `ds`. -/
def shuffle (ds : List Nat) : List Nat :=
  ((List.range' 2 255).foldl (fun s n =>
    let r := draw n 100 s.2
    (swap s.1 r.1 (n - 1), r.2)) (List.range 256, ds)).1

/-- The substitution table, from the first 722 digits of π (exactly as many as the shuffle reads). -/
noncomputable def S (b : U8) : U8 := BitVec.ofNat 8 ((shuffle ((List.range 722).map piDigit)).getD b.toNat 0)

/-! ## The algorithm -/

/-- §3.1: `i` bytes of value `i`, so that the length becomes a multiple of 16; at least one. -/
def pad (msg : List U8) : List U8 :=
  msg ++ List.replicate (16 - msg.length % 16) (BitVec.ofNat 8 (16 - msg.length % 16))

/-- §3.2: the value that the checksum byte `C[n mod 16]` receives when byte `n` of the padded message is processed.
Its previous value is the one of 16 bytes ago, `L` is the one of one byte ago, and both are initially 0. -/
noncomputable def chk (p : List U8) (n : Nat) : U8 :=
  (if n < 16 then 0#8 else chk p (n - 16)) ^^^ S (p.getD n 0#8 ^^^ (if n = 0 then 0#8 else chk p (n - 1)))
termination_by n

/-- The 16 checksum bytes: the values after the last block. -/
noncomputable def checksum (p : List U8) : List U8 := (List.range 16).map fun j => chk p (p.length - 16 + j)

/-- One pass over the buffer: every byte is xored with the table entry of the byte before it (`t` before the first). -/
noncomputable def sweep (t : U8) : List U8 → List U8
  | [] => []
  | x :: xs => (x ^^^ S t) :: sweep (x ^^^ S t) xs

/-- The first `j` of the 18 rounds on the buffer `X`: the buffer and `t`. -/
noncomputable def rounds (X : List U8) : Nat → List U8 × U8
  | 0 => (X, 0#8)
  | j + 1 =>
    let r := rounds X j
    let Y := sweep r.2 r.1
    (Y, Y.getLastD r.2 + BitVec.ofNat 8 j)

/-- §3.4: the first 16 bytes of the buffer after `i` blocks of `p`. -/
noncomputable def state (p : List U8) : Nat → List U8
  | 0 => List.replicate 16 0#8
  | i + 1 =>
    let x := state p i
    let m := (p.drop (16 * i)).take 16
    (rounds (x ++ m ++ List.zipWith (· ^^^ ·) m x) 18).1.take 16

/-- MD2. -/
noncomputable def md2 (msg : List U8) : List U8 :=
  let p := pad msg
  let q := p ++ checksum p
  state q (q.length / 16)

end Verif.Spec.Md2
