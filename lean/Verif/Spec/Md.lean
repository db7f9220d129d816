import Verif.Basic
import Mathlib.Analysis.SpecialFunctions.Trigonometric.Basic

/-! # MD4 (RFC 1320) and MD5 (RFC 1321)

The 48 (64) steps are one recursion: each step computes a new word from the state `(a, b, c, d)` and rotates the
state to `(d, new, b, c)`; the order of the message words and the shifts are functions of the step number, and the
MD5 constants are real sines. -/

namespace Verif.Spec.Md
open Verif

/-- Steps 1 and 2: the message, the byte 0x80, the least number of zero bytes that makes the length 56 modulo 64,
and the length in bits as 8 bytes, least significant byte first. -/
def pad (msg : List U8) : List U8 :=
  msg ++ 0x80#8 :: List.replicate ((119 - msg.length % 64) % 64) 0#8 ++ natToLE 8 (8 * msg.length)

/-- The 32-bit word that starts at byte `off`, least significant byte first. -/
def word (p : List U8) (off : Nat) : U32 := BitVec.ofNat 32 (leVal ((p.drop off).take 4))

/-- The four-word buffer. -/
structure Four where
  a : U32
  b : U32
  c : U32
  d : U32

/-- Step 3: the initial buffer; as bytes: 01 23 45 67, 89 ab cd ef, fe dc ba 98, 76 54 32 10. -/
def init : Four := ⟨BitVec.ofNat 32 (leVal [0x01#8, 0x23#8, 0x45#8, 0x67#8]),
  BitVec.ofNat 32 (leVal [0x89#8, 0xab#8, 0xcd#8, 0xef#8]), BitVec.ofNat 32 (leVal [0xfe#8, 0xdc#8, 0xba#8, 0x98#8]),
  BitVec.ofNat 32 (leVal [0x76#8, 0x54#8, 0x32#8, 0x10#8])⟩

/-- The state after `t` steps, where `new t X s` is the word that step `t` computes. -/
def steps (new : Nat → (Nat → U32) → Four → U32) (X : Nat → U32) (s : Four) : Nat → Four
  | 0 => s
  | t + 1 =>
    let r := steps new X s t
    ⟨r.d, new t X r, r.b, r.c⟩

/-- The buffer after the first `i` blocks of 64 bytes of the padded message `p`. -/
def buffer (new : Nat → (Nat → U32) → Four → U32) (n : Nat) (p : List U8) : Nat → Four
  | 0 => init
  | i + 1 =>
    let H := buffer new n p i
    let r := steps new (fun k => word p (64 * i + 4 * k)) H n
    ⟨H.a + r.a, H.b + r.b, H.c + r.c, H.d + r.d⟩

/-- Step 5: the output, least significant byte first. -/
def digest (new : Nat → (Nat → U32) → Four → U32) (n : Nat) (msg : List U8) : List U8 :=
  let p := pad msg
  let H := buffer new n p (p.length / 64)
  natToLE 4 H.a.toNat ++ natToLE 4 H.b.toNat ++ natToLE 4 H.c.toNat ++ natToLE 4 H.d.toNat

/-! ## MD4 -/

/-- RFC 1320 step 4: F, G, H for rounds 1, 2, 3. -/
def md4F (t : Nat) (x y z : U32) : U32 :=
  if t < 16 then (x &&& y) ||| (~~~x &&& z)
  else if t < 32 then (x &&& y) ||| (x &&& z) ||| (y &&& z)
  else x ^^^ y ^^^ z

/-- The additive constant of the round: 0, then the octal numbers 013240474631 and 015666365641. -/
def md4K (t : Nat) : U32 := if t < 16 then 0#32 else if t < 32 then 0x5A827999#32 else 0x6ED9EBA1#32

/-- Which message word step `t` uses: in order, by columns of the 4 × 4 square, in bit-reversed order. -/
def md4Index (t : Nat) : Nat :=
  if t < 16 then t
  else if t < 32 then 4 * (t % 4) + t % 16 / 4
  else 8 * (t % 2) + 4 * (t / 2 % 2) + 2 * (t / 4 % 2) + t / 8 % 2

/-- The shifts. -/
def md4Shift (t : Nat) : Nat := ([[3, 7, 11, 19], [3, 5, 9, 13], [3, 9, 11, 15]].getD (t / 16) []).getD (t % 4) 0

/-- `(a + F(b,c,d) + X[k] + K) <<< s`. -/
def md4New (t : Nat) (X : Nat → U32) (r : Four) : U32 :=
  (r.a + md4F t r.b r.c r.d + X (md4Index t) + md4K t).rotateLeft (md4Shift t)

/-- MD4. -/
def md4 (msg : List U8) : List U8 := digest md4New 48 msg

/-! ## MD5 -/

/-- RFC 1321 step 4: F, G, H, I for rounds 1 to 4. -/
def md5F (t : Nat) (x y z : U32) : U32 :=
  if t < 16 then (x &&& y) ||| (~~~x &&& z)
  else if t < 32 then (x &&& z) ||| (y &&& ~~~z)
  else if t < 48 then x ^^^ y ^^^ z
  else y ^^^ (x ||| ~~~z)

/-- `T[i]`, the integer part of `4294967296 · abs (sin i)`, `i` in radians, counted from 1. -/
noncomputable def md5T (i : Nat) : U32 := BitVec.ofNat 32 ⌊4294967296 * |Real.sin i|⌋₊

/-- Which message word step `t` uses. -/
def md5Index (t : Nat) : Nat :=
  if t < 16 then t else if t < 32 then (5 * t + 1) % 16 else if t < 48 then (3 * t + 5) % 16 else 7 * t % 16

/-- The shifts. -/
def md5Shift (t : Nat) : Nat :=
  ([[7, 12, 17, 22], [5, 9, 14, 20], [4, 11, 16, 23], [6, 10, 15, 21]].getD (t / 16) []).getD (t % 4) 0

/-- `b + ((a + F(b,c,d) + X[k] + T[i]) <<< s)`. -/
noncomputable def md5New (t : Nat) (X : Nat → U32) (r : Four) : U32 :=
  r.b + (r.a + md5F t r.b r.c r.d + X (md5Index t) + md5T (t + 1)).rotateLeft (md5Shift t)

/-- MD5. -/
noncomputable def md5 (msg : List U8) : List U8 := digest md5New 64 msg

end Verif.Spec.Md
