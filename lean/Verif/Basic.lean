/-!
# Shared vocabulary of the model

Machine words, panics, and the pieces of the Rust standard library that several modules of
`/repo/src` use (integer/byte conversions, `chunks_exact`).
-/

namespace Verif

/-- Rust `u8`. -/
abbrev U8 := BitVec 8
/-- Rust `u16`. -/
abbrev U16 := BitVec 16
/-- Rust `u32`. -/
abbrev U32 := BitVec 32
/-- Rust `u64`. -/
abbrev U64 := BitVec 64
/-- Rust `u128`. -/
abbrev U128 := BitVec 128

/-- The ways in which the modelled Rust code can panic. `diverged` is not a Rust panic: it is what a
fuel-driven loop of the model returns when its fuel runs out; theorems show it is never returned. -/
inductive Panic
  /-- arithmetic overflow (debug profile) -/
  | overflow
  /-- division or remainder by zero -/
  | divZero
  /-- index or slice range out of bounds, or `copy_from_slice` length mismatch -/
  | index
  /-- `unwrap`/`expect` on `None` or `Err` -/
  | unwrap
  /-- `assert!`/`assert_eq!` failure -/
  | assertion
  /-- explicit `panic!` -/
  | explicit
  /-- `ilog2` of zero -/
  | ilogZero
  /-- the model ran out of fuel -/
  | diverged
  deriving DecidableEq, Repr

/-- A Rust computation that may panic. -/
abbrev R (α : Type) := Except Panic α

instance {ε α : Type} [DecidableEq ε] [DecidableEq α] : DecidableEq (Except ε α)
  | .ok a, .ok b => if h : a = b then isTrue (by rw [h]) else isFalse (by intro h'; cases h'; exact h rfl)
  | .error a, .error b => if h : a = b then isTrue (by rw [h]) else isFalse (by intro h'; cases h'; exact h rfl)
  | .ok _, .error _ => isFalse (by intro h; cases h)
  | .error _, .ok _ => isFalse (by intro h; cases h)

/-- Rust `xs[i]` on a slice or `Vec` whose length is not known statically. -/
def idx {α : Type} (xs : List α) (i : Nat) : R α :=
  match xs[i]? with
  | some x => .ok x
  | none => .error .index

/-- `v[i]` for a fixed-size array and a computed index. -/
def vidx {α : Type} {n : Nat} (v : Vector α n) (i : Nat) : R α :=
  if h : i < n then .ok v[i] else .error .index

/-- `v[i] = a` for a fixed-size array and a computed index. -/
def vset {α : Type} {n : Nat} (v : Vector α n) (i : Nat) (a : α) : R (Vector α n) :=
  if h : i < n then .ok (v.set i a) else .error .index

/-- Rust `a + b` on `u32` (debug profile). -/
def addU32 (a b : Nat) : R Nat := if a + b < 2 ^ 32 then .ok (a + b) else .error .overflow
/-- Rust `a * b` on `u32` (debug profile). -/
def mulU32 (a b : Nat) : R Nat := if a * b < 2 ^ 32 then .ok (a * b) else .error .overflow
/-- Rust `a * b` on `u64`/`usize` (debug profile, 64-bit target). -/
def mulU64 (a b : Nat) : R Nat := if a * b < 2 ^ 64 then .ok (a * b) else .error .overflow
/-- Rust `a * b` on `u128` (debug profile). -/
def mulU128 (a b : Nat) : R Nat := if a * b < 2 ^ 128 then .ok (a * b) else .error .overflow
/-- Rust `a - b` on any unsigned type (debug profile). -/
def subU (a b : Nat) : R Nat := if b ≤ a then .ok (a - b) else .error .overflow

/-- The byte string of length `k` that `to_le_bytes` produces for the number `n`
(bits above `8*k` are dropped, as in the fixed-width Rust types). -/
def natToLE : Nat → Nat → List U8
  | 0, _ => []
  | k + 1, n => BitVec.ofNat 8 n :: natToLE k (n / 256)

/-- `to_be_bytes`. -/
def natToBE (k n : Nat) : List U8 := (natToLE k n).reverse

/-- The number a little-endian byte string denotes (`from_le_bytes`). -/
def leVal : List U8 → Nat
  | [] => 0
  | b :: bs => b.toNat + 256 * leVal bs

/-- The number a big-endian byte string denotes (`from_be_bytes`). -/
def beVal (l : List U8) : Nat := leVal l.reverse

/-- Rust `slice.chunks_exact(n)`: the full chunks, in order (`n ≠ 0`). -/
def chunksExact {α : Type} (n : Nat) (l : List α) : List (Vector α n) :=
  List.ofFn (n := l.length / n) fun i =>
    Vector.ofFn fun j =>
      l[i.val * n + j.val]'(by
        have h1 := i.isLt
        have h2 := j.isLt
        have h3 : (i.val + 1) * n ≤ l.length / n * n := Nat.mul_le_mul_right n h1
        have h4 := Nat.div_mul_le_self l.length n
        rw [Nat.add_mul] at h3
        omega)

/-- Rust `slice.chunks_exact(n).remainder()`. -/
def chunksRem {α : Type} (n : Nat) (l : List α) : List α := l.drop (l.length / n * n)

/-- Read byte `8*i .. 8*i+7` positions of four bytes as a big-endian `u32`. -/
def beU32 (b0 b1 b2 b3 : U8) : U32 := b0 ++ b1 ++ b2 ++ b3
/-- `u32::from_le_bytes`. -/
def leU32 (b0 b1 b2 b3 : U8) : U32 := b3 ++ b2 ++ b1 ++ b0
/-- `u16::from_le_bytes`. -/
def leU16 (b0 b1 : U8) : U16 := b1 ++ b0
/-- `u64::from_be_bytes`. -/
def beU64 (b0 b1 b2 b3 b4 b5 b6 b7 : U8) : U64 := b0 ++ b1 ++ b2 ++ b3 ++ b4 ++ b5 ++ b6 ++ b7

/-- Rust `dst[off..][..src.len()].copy_from_slice(src)` (or `dst[off..].copy_from_slice(src)` when `src` reaches
the end) on a fixed-size array. -/
def copyInto {N : Nat} (dst : Vector U8 N) (off : Nat) (src : List U8) : R (Vector U8 N) :=
  if off + src.length ≤ N then
    .ok (Vector.ofFn fun j => if off ≤ j.val ∧ j.val < off + src.length then src.getD (j.val - off) 0#8 else dst[j])
  else .error .index

end Verif
