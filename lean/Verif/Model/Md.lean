import Verif.Basic

/-! # Model of `src/md/md4.rs` and `src/md/md5.rs` -/

namespace Verif.Model.Md
open Verif

/-! ## The hasher

Lines 1-90 of the two files are the same except for the `Block::process` they call, so the hasher is modelled
once, with `process` as a parameter. -/

/-- The four chaining variables. Fields of `Hasher`, src/md/md4.rs:15-18 and src/md/md5.rs:15-18. -/
structure Abcd where
  a : U32
  b : U32
  c : U32
  d : U32
  deriving DecidableEq

/-- `struct Hasher`, src/md/md4.rs:11-19, src/md/md5.rs:11-19. -/
structure Hasher where
  unprocessed : List U8
  bytesConsumed : Nat
  s : Abcd
  deriving DecidableEq

/-- `u32::swap_bytes`. Used at src/md/md4.rs:27-30 and src/md/md5.rs:27-30. -/
def swapBytes (x : U32) : U32 :=
  x.extractLsb' 0 8 ++ x.extractLsb' 8 8 ++ x.extractLsb' 16 8 ++ x.extractLsb' 24 8

/-- `Hasher::new`, src/md/md4.rs:22-32, src/md/md5.rs:22-32. -/
def Hasher.new : Hasher :=
  ⟨[], 0, ⟨swapBytes 0x01234567#32, swapBytes 0x89abcdef#32, swapBytes 0xfedcba98#32, swapBytes 0x76543210#32⟩⟩

/-- `Block::from_slice`, src/md/md4.rs:83-90, src/md/md5.rs:83-90: slicing panics when the chunk is too short. -/
def blockFromSlice (chunk : List U8) : R (Vector U32 16) :=
  if h : 64 ≤ chunk.length then
    .ok (Vector.ofFn fun j : Fin 16 => leU32 chunk[j.val * 4] chunk[j.val * 4 + 1] chunk[j.val * 4 + 2] chunk[j.val * 4 + 3])
  else .error .index

/-- `Hasher::process_block`, src/md/md4.rs:42-52, src/md/md5.rs:42-52. -/
def Hasher.processBlock (process : Vector U32 16 → Abcd → R Abcd) (h : Hasher) : R Hasher := do
  let block ← blockFromSlice h.unprocessed
  let r ← process block h.s
  .ok { h with unprocessed := [], s := ⟨h.s.a + r.a, h.s.b + r.b, h.s.c + r.c, h.s.d + r.d⟩ }

/-- `Hasher::consume`, src/md/md4.rs:34-40, src/md/md5.rs:34-40. -/
def Hasher.consume (process : Vector U32 16 → Abcd → R Abcd) (h : Hasher) (byte : U8) : R Hasher :=
  if h.bytesConsumed + 1 < 2 ^ 64 then
    let h := { h with bytesConsumed := h.bytesConsumed + 1, unprocessed := h.unprocessed ++ [byte] }
    if h.unprocessed.length = 64 then h.processBlock process else .ok h
  else .error .overflow

/-- `num_pad_bytes`, src/md/md4.rs:56-59, src/md/md5.rs:56-59. -/
def numPadBytes (a : Nat) : R Nat := if a = 56 then .ok 64 else do .ok ((← subU (64 + 56) a) % 64)

/-- `Hasher::finish`, src/md/md4.rs:54-75, src/md/md5.rs:54-75. The output array is written in order. -/
def Hasher.finish (process : Vector U32 16 → Abcd → R Abcd) (h : Hasher) : R (Vector U8 16) := do
  let bits ← mulU64 h.bytesConsumed 8
  let pad ← numPadBytes h.unprocessed.length
  let h ← h.consume process 0x80#8
  let h ← (List.replicate (← subU pad 1) 0#8).foldlM (Hasher.consume process) h
  let h ← (natToLE 8 bits).foldlM (Hasher.consume process) h
  let out ← copyInto (Vector.replicate 16 0#8) 0 (natToLE 4 h.s.a.toNat)
  let out ← copyInto out 4 (natToLE 4 h.s.b.toNat)
  let out ← copyInto out 8 (natToLE 4 h.s.c.toNat)
  copyInto out 12 (natToLE 4 h.s.d.toNat)

/-- `hash`, src/md/md4.rs:1-9, src/md/md5.rs:1-9. -/
def hash (process : Vector U32 16 → Abcd → R Abcd) (data : List U8) : R (Vector U8 16) := do
  (← data.foldlM (Hasher.consume process) Hasher.new).finish process

end Verif.Model.Md

/-! ## `src/md/md4.rs` -/

namespace Verif.Model.Md4
open Verif Verif.Model.Md

/-- `f`, src/md/md4.rs:166-168. -/
def f (x y z : U32) : U32 := (x &&& y) ^^^ (~~~x &&& z)
/-- `g`, src/md/md4.rs:169-171. -/
def g (x y z : U32) : U32 := (x &&& y) ||| (x &&& z) ||| (y &&& z)
/-- `h`, src/md/md4.rs:172-174. -/
def h (x y z : U32) : U32 := x ^^^ y ^^^ z

/-- `Block::ff`, src/md/md4.rs:92-94. -/
def ff (x : Vector U32 16) (a b c d : U32) (i : Fin 16) (s : Nat) : U32 := (a + f b c d + x[i]).rotateLeft s
/-- `Block::gg`, src/md/md4.rs:96-101. -/
def gg (x : Vector U32 16) (a b c d : U32) (i : Fin 16) (s : Nat) : U32 :=
  (a + g b c d + x[i] + 0x5A827999#32).rotateLeft s
/-- `Block::hh`, src/md/md4.rs:103-108. -/
def hh (x : Vector U32 16) (a b c d : U32) (i : Fin 16) (s : Nat) : U32 :=
  (a + h b c d + x[i] + 0x6ED9EBA1#32).rotateLeft s

/-- Four consecutive statements of `process`, src/md/md4.rs:111-160; they always assign `a`, `d`, `c`, `b` from
`(a,b,c,d)`, `(d,a,b,c)`, `(c,d,a,b)`, `(b,c,d,a)`. -/
def row (op : Vector U32 16 → U32 → U32 → U32 → U32 → Fin 16 → Nat → U32) (x : Vector U32 16) (s : Abcd) :
    Fin 16 × Fin 16 × Fin 16 × Fin 16 → Nat × Nat × Nat × Nat → Abcd
  | (i0, i1, i2, i3), (s0, s1, s2, s3) =>
    let a := op x s.a s.b s.c s.d i0 s0
    let d := op x s.d a s.b s.c i1 s1
    let c := op x s.c d a s.b i2 s2
    let b := op x s.b c d a i3 s3
    ⟨a, b, c, d⟩

/-- `Block::process`, src/md/md4.rs:110-163. -/
def process (x : Vector U32 16) (s : Abcd) : Abcd :=
  let s := row ff x s (0, 1, 2, 3) (3, 7, 11, 19)
  let s := row ff x s (4, 5, 6, 7) (3, 7, 11, 19)
  let s := row ff x s (8, 9, 10, 11) (3, 7, 11, 19)
  let s := row ff x s (12, 13, 14, 15) (3, 7, 11, 19)
  let s := row gg x s (0, 4, 8, 12) (3, 5, 9, 13)
  let s := row gg x s (1, 5, 9, 13) (3, 5, 9, 13)
  let s := row gg x s (2, 6, 10, 14) (3, 5, 9, 13)
  let s := row gg x s (3, 7, 11, 15) (3, 5, 9, 13)
  let s := row hh x s (0, 8, 4, 12) (3, 9, 11, 15)
  let s := row hh x s (2, 10, 6, 14) (3, 9, 11, 15)
  let s := row hh x s (1, 9, 5, 13) (3, 9, 11, 15)
  let s := row hh x s (3, 11, 7, 15) (3, 9, 11, 15)
  s

/-- `md4::hash`, src/md/md4.rs:1-9. -/
def hash (data : List U8) : R (Vector U8 16) := Md.hash (fun x s => .ok (process x s)) data

end Verif.Model.Md4

/-! ## `src/md/md5.rs` -/

namespace Verif.Model.Md5
open Verif Verif.Model.Md

/-- `const T`, src/md/md5.rs:190-201. -/
def T : Vector U32 64 := #v[
  0xd76aa478#32, 0xe8c7b756#32, 0x242070db#32, 0xc1bdceee#32, 0xf57c0faf#32, 0x4787c62a#32, 0xa8304613#32, 0xfd469501#32,
  0x698098d8#32, 0x8b44f7af#32, 0xffff5bb1#32, 0x895cd7be#32, 0x6b901122#32, 0xfd987193#32, 0xa679438e#32, 0x49b40821#32,
  0xf61e2562#32, 0xc040b340#32, 0x265e5a51#32, 0xe9b6c7aa#32, 0xd62f105d#32, 0x2441453#32, 0xd8a1e681#32, 0xe7d3fbc8#32,
  0x21e1cde6#32, 0xc33707d6#32, 0xf4d50d87#32, 0x455a14ed#32, 0xa9e3e905#32, 0xfcefa3f8#32, 0x676f02d9#32, 0x8d2a4c8a#32,
  0xfffa3942#32, 0x8771f681#32, 0x6d9d6122#32, 0xfde5380c#32, 0xa4beea44#32, 0x4bdecfa9#32, 0xf6bb4b60#32, 0xbebfbc70#32,
  0x289b7ec6#32, 0xeaa127fa#32, 0xd4ef3085#32, 0x4881d05#32, 0xd9d4d039#32, 0xe6db99e5#32, 0x1fa27cf8#32, 0xc4ac5665#32,
  0xf4292244#32, 0x432aff97#32, 0xab9423a7#32, 0xfc93a039#32, 0x655b59c3#32, 0x8f0ccc92#32, 0xffeff47d#32, 0x85845dd1#32,
  0x6fa87e4f#32, 0xfe2ce6e0#32, 0xa3014314#32, 0x4e0811a1#32, 0xf7537e82#32, 0xbd3af235#32, 0x2ad7d2bb#32, 0xeb86d391#32]

/-- `f`, src/md/md5.rs:177-179. -/
def f (x y z : U32) : U32 := (x &&& y) ||| (~~~x &&& z)
/-- `g`, src/md/md5.rs:180-182. -/
def g (x y z : U32) : U32 := (x &&& z) ||| (y &&& ~~~z)
/-- `h`, src/md/md5.rs:183-185. -/
def h (x y z : U32) : U32 := x ^^^ y ^^^ z
/-- `_i`, src/md/md5.rs:186-188. -/
def i (x y z : U32) : U32 := y ^^^ (x ||| ~~~z)

/-- `Block::ff`, `gg`, `hh`, `ii`, src/md/md5.rs:92-122, which differ only in the function `fn`. -/
def op (fn : U32 → U32 → U32 → U32) (x : Vector U32 16) (a b c d : U32) : Nat × Nat × Nat → R U32
  | (k, s, i) => do .ok ((a + fn b c d + (← vidx x k) + (← vidx T (← subU i 1))).rotateLeft s + b)

/-- One iteration of the loops of `process`, src/md/md5.rs:131-134, 143-146, 155-158, 167-170. -/
def row (fn : U32 → U32 → U32 → U32) (x : Vector U32 16) (s : Abcd) :
    (Nat × Nat × Nat) × (Nat × Nat × Nat) × (Nat × Nat × Nat) × (Nat × Nat × Nat) → R Abcd
  | (r0, r1, r2, r3) => do
    let a ← op fn x s.a s.b s.c s.d r0
    let d ← op fn x s.d a s.b s.c r1
    let c ← op fn x s.c d a s.b r2
    let b ← op fn x s.b c d a r3
    .ok ⟨a, b, c, d⟩

/-- `Block::process`, src/md/md5.rs:124-174. -/
def process (x : Vector U32 16) (s : Abcd) : R Abcd := do
  let s ← [
    ((0, 7, 1), (1, 12, 2), (2, 17, 3), (3, 22, 4)),
    ((4, 7, 5), (5, 12, 6), (6, 17, 7), (7, 22, 8)),
    ((8, 7, 9), (9, 12, 10), (10, 17, 11), (11, 22, 12)),
    ((12, 7, 13), (13, 12, 14), (14, 17, 15), (15, 22, 16))].foldlM (row f x) s
  let s ← [
    ((1, 5, 17), (6, 9, 18), (11, 14, 19), (0, 20, 20)),
    ((5, 5, 21), (10, 9, 22), (15, 14, 23), (4, 20, 24)),
    ((9, 5, 25), (14, 9, 26), (3, 14, 27), (8, 20, 28)),
    ((13, 5, 29), (2, 9, 30), (7, 14, 31), (12, 20, 32))].foldlM (row g x) s
  let s ← [
    ((5, 4, 33), (8, 11, 34), (11, 16, 35), (14, 23, 36)),
    ((1, 4, 37), (4, 11, 38), (7, 16, 39), (10, 23, 40)),
    ((13, 4, 41), (0, 11, 42), (3, 16, 43), (6, 23, 44)),
    ((9, 4, 45), (12, 11, 46), (15, 16, 47), (2, 23, 48))].foldlM (row h x) s
  let s ← [
    ((0, 6, 49), (7, 10, 50), (14, 15, 51), (5, 21, 52)),
    ((12, 6, 53), (3, 10, 54), (10, 15, 55), (1, 21, 56)),
    ((8, 6, 57), (15, 10, 58), (6, 15, 59), (13, 21, 60)),
    ((4, 6, 61), (11, 10, 62), (2, 15, 63), (9, 21, 64))].foldlM (row i x) s
  .ok s

/-- `md5::hash`, src/md/md5.rs:1-9. -/
def hash (data : List U8) : R (Vector U8 16) := Md.hash process data

end Verif.Model.Md5
