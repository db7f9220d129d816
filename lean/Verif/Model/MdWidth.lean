import Verif.Model.Release

/-! # MD4 and MD5 for any width of `usize`

`Hasher::bytes_consumed` is a `usize` (src/md/md4.rs:13, src/md/md5.rs:13), and `finish` multiplies it by 8 before
the conversion to `u64` (line 55). The other models of the hasher fix 64-bit targets; here the width `w` of `usize`
is a parameter (Rust's targets have 16, 32 or 64 bits), with arithmetic that panics on overflow (debug builds) and
with arithmetic that wraps (release builds). The other quantities of type `usize` in these files are at most 128, so
that their width does not matter. -/

namespace Verif.Model.MdWidth
open Verif
open _root_.Verif.Model.Md (Hasher Abcd)
open _root_.Verif.Model.Release (addW mulW subW)

/-! ## Overflow checks on -/
namespace Checked

/-- Rust `a * b` on a `w`-bit `usize` (debug profile). Used for src/md/md4.rs:55 and src/md/md5.rs:55. -/
def mulU (w a b : Nat) : R Nat := if a * b < 2 ^ w then .ok (a * b) else .error .overflow

/-- `Hasher::consume`, src/md/md4.rs:34-40, src/md/md5.rs:34-40. -/
def consume (w : Nat) (process : Vector U32 16 → Abcd → R Abcd) (h : Hasher) (byte : U8) : R Hasher :=
  if h.bytesConsumed + 1 < 2 ^ w then
    let h := { h with bytesConsumed := h.bytesConsumed + 1, unprocessed := h.unprocessed ++ [byte] }
    if h.unprocessed.length = 64 then h.processBlock process else .ok h
  else .error .overflow

/-- `Hasher::finish`, src/md/md4.rs:54-75, src/md/md5.rs:54-75. -/
def finish (w : Nat) (process : Vector U32 16 → Abcd → R Abcd) (h : Hasher) : R (Vector U8 16) := do
  let bits ← mulU w h.bytesConsumed 8
  let pad ← Md.numPadBytes h.unprocessed.length
  let h ← consume w process h 0x80#8
  let h ← (List.replicate (← subU pad 1) 0#8).foldlM (consume w process) h
  let h ← (natToLE 8 bits).foldlM (consume w process) h
  let out ← copyInto (Vector.replicate 16 0#8) 0 (natToLE 4 h.s.a.toNat)
  let out ← copyInto out 4 (natToLE 4 h.s.b.toNat)
  let out ← copyInto out 8 (natToLE 4 h.s.c.toNat)
  copyInto out 12 (natToLE 4 h.s.d.toNat)

/-- `hash`, src/md/md4.rs:1-9, src/md/md5.rs:1-9. -/
def hash (w : Nat) (process : Vector U32 16 → Abcd → R Abcd) (data : List U8) : R (Vector U8 16) := do
  finish w process (← data.foldlM (consume w process) Hasher.new)

/-- `md4::hash`, src/md/md4.rs:1-9. -/
def md4 (w : Nat) (data : List U8) : R (Vector U8 16) := hash w (fun x s => .ok (Md4.process x s)) data
/-- `md5::hash`, src/md/md5.rs:1-9. -/
def md5 (w : Nat) (data : List U8) : R (Vector U8 16) := hash w Md5.process data

end Checked

/-! ## Overflow checks off -/
namespace Wrapping

/-- `Hasher::consume`, src/md/md4.rs:34-40, src/md/md5.rs:34-40. -/
def consume (w : Nat) (process : Vector U32 16 → Abcd → R Abcd) (h : Hasher) (byte : U8) : R Hasher :=
  let h := { h with bytesConsumed := addW w h.bytesConsumed 1, unprocessed := h.unprocessed ++ [byte] }
  if h.unprocessed.length = 64 then h.processBlock process else .ok h

/-- `Hasher::finish`, src/md/md4.rs:54-75, src/md/md5.rs:54-75. -/
def finish (w : Nat) (process : Vector U32 16 → Abcd → R Abcd) (h : Hasher) : R (Vector U8 16) := do
  let bits := mulW w h.bytesConsumed 8
  let pad := Release.numPadBytes h.unprocessed.length
  let h ← consume w process h 0x80#8
  let h ← (List.replicate (subW w pad 1) 0#8).foldlM (consume w process) h
  let h ← (natToLE 8 bits).foldlM (consume w process) h
  let out ← copyInto (Vector.replicate 16 0#8) 0 (natToLE 4 h.s.a.toNat)
  let out ← copyInto out 4 (natToLE 4 h.s.b.toNat)
  let out ← copyInto out 8 (natToLE 4 h.s.c.toNat)
  copyInto out 12 (natToLE 4 h.s.d.toNat)

/-- `hash`, src/md/md4.rs:1-9, src/md/md5.rs:1-9. -/
def hash (w : Nat) (process : Vector U32 16 → Abcd → R Abcd) (data : List U8) : R (Vector U8 16) := do
  finish w process (← data.foldlM (consume w process) Hasher.new)

/-- `md4::hash`, src/md/md4.rs:1-9. -/
def md4 (w : Nat) (data : List U8) : R (Vector U8 16) := hash w (fun x s => .ok (Md4.process x s)) data
/-- `md5::hash`, src/md/md5.rs:1-9. -/
def md5 (w : Nat) (data : List U8) : R (Vector U8 16) := hash w Md5.process data

end Wrapping

end Verif.Model.MdWidth
