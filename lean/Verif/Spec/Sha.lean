import Verif.Basic
import Mathlib.NumberTheory.PrimeCounting
import Mathlib.Analysis.SpecialFunctions.Pow.Real
import Mathlib.Data.Nat.Nth

/-! # SHA-1 and SHA-2 as defined by FIPS 180-4

The message schedule is a recursive function of the round number, the hash value a function of the block
number, and the SHA-2 constants are the bits of real square and cube roots of primes. -/

namespace Verif.Spec.Sha
open Verif

/-! ## Padding and parsing (§5.1, §5.2) -/

/-- §5.1: the message, a 1 bit (with seven 0 bits: the byte 0x80), `k` zero bytes, the length in bits as a
`lenBytes`-byte big-endian number, with the least `k` that makes the length a multiple of `block`. -/
def pad (block lenBytes : Nat) (msg : List U8) : List U8 :=
  msg ++ 0x80#8 :: List.replicate ((2 * block - 1 - lenBytes - msg.length % block) % block) 0#8 ++
    natToBE lenBytes (8 * msg.length)

/-- §5.2: the big-endian word of `n` bits that starts at byte `off`. -/
def word (n : Nat) (p : List U8) (off : Nat) : BitVec n := BitVec.ofNat n (beVal ((p.drop off).take (n / 8)))

/-- §3.1: words to bytes, most significant byte first. -/
def bytes {n : Nat} (ws : List (BitVec n)) : List U8 := ws.flatMap fun w => natToBE (n / 8) w.toNat

/-! ## Functions (§4.1) -/

def Ch {n : Nat} (x y z : BitVec n) : BitVec n := (x &&& y) ^^^ (~~~x &&& z)
def Maj {n : Nat} (x y z : BitVec n) : BitVec n := (x &&& y) ^^^ (x &&& z) ^^^ (y &&& z)
def Parity {n : Nat} (x y z : BitVec n) : BitVec n := x ^^^ y ^^^ z

/-! ## SHA-1 (§4.1.1, §4.2.1, §5.3.1, §6.1) -/

def sha1F (t : Nat) : U32 → U32 → U32 → U32 :=
  if t ≤ 19 then Ch else if t ≤ 39 then Parity else if t ≤ 59 then Maj else Parity

def sha1K (t : Nat) : U32 :=
  if t ≤ 19 then 0x5a827999#32 else if t ≤ 39 then 0x6ed9eba1#32
  else if t ≤ 59 then 0x8f1bbcdc#32 else 0xca62c1d6#32

/-- The message schedule of the block `M`. -/
def sha1W (M : Nat → U32) (t : Nat) : U32 :=
  if t < 16 then M t
  else (sha1W M (t - 3) ^^^ sha1W M (t - 8) ^^^ sha1W M (t - 14) ^^^ sha1W M (t - 16)).rotateLeft 1
termination_by t

/-- The five working variables `a .. e`. -/
structure Five where
  a : U32
  b : U32
  c : U32
  d : U32
  e : U32

/-- The working variables after `t` rounds. -/
def sha1Rounds (W : Nat → U32) (s : Five) : Nat → Five
  | 0 => s
  | t + 1 =>
    let r := sha1Rounds W s t
    ⟨r.a.rotateLeft 5 + sha1F t r.b r.c r.d + r.e + sha1K t + W t, r.a, r.b.rotateLeft 30, r.c, r.d⟩

/-- One block. -/
def sha1Compress (H : Five) (M : Nat → U32) : Five :=
  let r := sha1Rounds (sha1W M) H 80
  ⟨r.a + H.a, r.b + H.b, r.c + H.c, r.d + H.d, r.e + H.e⟩

/-- The hash value after the first `i` blocks of the padded message `p`. -/
def sha1Hash (p : List U8) : Nat → Five
  | 0 => ⟨0x67452301#32, 0xefcdab89#32, 0x98badcfe#32, 0x10325476#32, 0xc3d2e1f0#32⟩
  | i + 1 => sha1Compress (sha1Hash p i) fun t => word 32 p (64 * i + 4 * t)

/-- SHA-1. -/
def sha1 (msg : List U8) : List U8 :=
  let p := pad 64 8 msg
  let H := sha1Hash p (p.length / 64)
  bytes [H.a, H.b, H.c, H.d, H.e]

/-! ## SHA-2 (§4.1.2, §4.1.3, §4.2.2, §4.2.3, §5.3, §6.2, §6.4) -/

/-- What distinguishes the 32-bit from the 64-bit family. -/
structure Family (n : Nat) where
  bigSigma0 : BitVec n → BitVec n
  bigSigma1 : BitVec n → BitVec n
  sigma0 : BitVec n → BitVec n
  sigma1 : BitVec n → BitVec n
  K : Nat → BitVec n
  rounds : Nat

/-- The `t`-th prime (from 0). -/
noncomputable def prime (t : Nat) : Nat := Nat.nth Nat.Prime t

/-- The first `bits` bits of the fractional part of the cube root of the `t`-th prime. -/
noncomputable def cubeBits (bits t : Nat) : BitVec bits :=
  BitVec.ofNat bits ⌊((prime t : ℝ) ^ ((1 : ℝ) / 3)) * 2 ^ bits⌋₊

/-- The first `bits` bits of the fractional part of the square root of the `t`-th prime. -/
noncomputable def sqrtBits (bits t : Nat) : BitVec bits :=
  BitVec.ofNat bits ⌊(Real.sqrt (prime t)) * 2 ^ bits⌋₊

/-- SHA-224/256: §4.1.2 (4.4)–(4.7), §4.2.2. -/
noncomputable def family32 : Family 32 where
  bigSigma0 x := x.rotateRight 2 ^^^ x.rotateRight 13 ^^^ x.rotateRight 22
  bigSigma1 x := x.rotateRight 6 ^^^ x.rotateRight 11 ^^^ x.rotateRight 25
  sigma0 x := x.rotateRight 7 ^^^ x.rotateRight 18 ^^^ (x >>> 3)
  sigma1 x := x.rotateRight 17 ^^^ x.rotateRight 19 ^^^ (x >>> 10)
  K := cubeBits 32
  rounds := 64

/-- SHA-384/512: §4.1.3 (4.10)–(4.13), §4.2.3. -/
noncomputable def family64 : Family 64 where
  bigSigma0 x := x.rotateRight 28 ^^^ x.rotateRight 34 ^^^ x.rotateRight 39
  bigSigma1 x := x.rotateRight 14 ^^^ x.rotateRight 18 ^^^ x.rotateRight 41
  sigma0 x := x.rotateRight 1 ^^^ x.rotateRight 8 ^^^ (x >>> 7)
  sigma1 x := x.rotateRight 19 ^^^ x.rotateRight 61 ^^^ (x >>> 6)
  K := cubeBits 64
  rounds := 80

/-- The message schedule of the block `M`. -/
def sha2W {n : Nat} (F : Family n) (M : Nat → BitVec n) (t : Nat) : BitVec n :=
  if t < 16 then M t
  else F.sigma1 (sha2W F M (t - 2)) + sha2W F M (t - 7) + F.sigma0 (sha2W F M (t - 15)) + sha2W F M (t - 16)
termination_by t

/-- Eight words: the hash value or the working variables `a .. h`. -/
structure Eight (n : Nat) where
  a : BitVec n
  b : BitVec n
  c : BitVec n
  d : BitVec n
  e : BitVec n
  f : BitVec n
  g : BitVec n
  h : BitVec n

/-- The working variables after `t` rounds. -/
def sha2Rounds {n : Nat} (F : Family n) (W : Nat → BitVec n) (s : Eight n) : Nat → Eight n
  | 0 => s
  | t + 1 =>
    let r := sha2Rounds F W s t
    let T1 := r.h + F.bigSigma1 r.e + Ch r.e r.f r.g + F.K t + W t
    let T2 := F.bigSigma0 r.a + Maj r.a r.b r.c
    ⟨T1 + T2, r.a, r.b, r.c, r.d + T1, r.e, r.f, r.g⟩

/-- One block. -/
def sha2Compress {n : Nat} (F : Family n) (H : Eight n) (M : Nat → BitVec n) : Eight n :=
  let r := sha2Rounds F (sha2W F M) H F.rounds
  ⟨r.a + H.a, r.b + H.b, r.c + H.c, r.d + H.d, r.e + H.e, r.f + H.f, r.g + H.g, r.h + H.h⟩

/-- The hash value after the first `i` blocks of the padded message `p`; a block is 16 words. -/
def sha2Hash {n : Nat} (F : Family n) (H0 : Eight n) (p : List U8) : Nat → Eight n
  | 0 => H0
  | i + 1 => sha2Compress F (sha2Hash F H0 p i) fun t => word n p (16 * (n / 8) * i + n / 8 * t)

/-- §5.3.3: SHA-256 starts from the fractional parts of the square roots of the first eight primes. -/
noncomputable def init256 : Eight 32 := ⟨sqrtBits 32 0, sqrtBits 32 1, sqrtBits 32 2, sqrtBits 32 3,
  sqrtBits 32 4, sqrtBits 32 5, sqrtBits 32 6, sqrtBits 32 7⟩

/-- §5.3.5. -/
noncomputable def init512 : Eight 64 := ⟨sqrtBits 64 0, sqrtBits 64 1, sqrtBits 64 2, sqrtBits 64 3,
  sqrtBits 64 4, sqrtBits 64 5, sqrtBits 64 6, sqrtBits 64 7⟩

/-- §5.3.4: the ninth to sixteenth prime. -/
noncomputable def init384 : Eight 64 := ⟨sqrtBits 64 8, sqrtBits 64 9, sqrtBits 64 10, sqrtBits 64 11,
  sqrtBits 64 12, sqrtBits 64 13, sqrtBits 64 14, sqrtBits 64 15⟩

/-- §5.3.2: the second 32 bits of the fractional parts of the square roots of the ninth to sixteenth prime. -/
noncomputable def init224 : Eight 32 := ⟨(sqrtBits 64 8).setWidth 32, (sqrtBits 64 9).setWidth 32,
  (sqrtBits 64 10).setWidth 32, (sqrtBits 64 11).setWidth 32, (sqrtBits 64 12).setWidth 32,
  (sqrtBits 64 13).setWidth 32, (sqrtBits 64 14).setWidth 32, (sqrtBits 64 15).setWidth 32⟩

/-- SHA-256. -/
noncomputable def sha256 (msg : List U8) : List U8 :=
  let p := pad 64 8 msg
  let H := sha2Hash family32 init256 p (p.length / 64)
  bytes [H.a, H.b, H.c, H.d, H.e, H.f, H.g, H.h]

/-- SHA-224: the left-most 224 bits. -/
noncomputable def sha224 (msg : List U8) : List U8 :=
  let p := pad 64 8 msg
  let H := sha2Hash family32 init224 p (p.length / 64)
  bytes [H.a, H.b, H.c, H.d, H.e, H.f, H.g]

/-- SHA-512. -/
noncomputable def sha512 (msg : List U8) : List U8 :=
  let p := pad 128 16 msg
  let H := sha2Hash family64 init512 p (p.length / 128)
  bytes [H.a, H.b, H.c, H.d, H.e, H.f, H.g, H.h]

/-- SHA-384: the left-most 384 bits. -/
noncomputable def sha384 (msg : List U8) : List U8 :=
  let p := pad 128 16 msg
  let H := sha2Hash family64 init384 p (p.length / 128)
  bytes [H.a, H.b, H.c, H.d, H.e, H.f]

/-! ## Hexadecimal -/

/-- ASCII. -/
def ascii (s : String) : List U8 := s.toList.map fun c => BitVec.ofNat 8 c.toNat

/-- The value of a hexadecimal digit: its place in one of the two alphabets. -/
def digitVal (c : U8) : Option Nat := (ascii "0123456789abcdef").idxOf? c <|> (ascii "0123456789ABCDEF").idxOf? c

/-- `s` is `2N` hexadecimal digits and spells the bytes of `v`, high digit first. -/
def Spells {N : Nat} (s : List U8) (v : Vector U8 N) : Prop :=
  s.length = 2 * N ∧ ∀ i (_ : i < N), ∃ h l, s[2 * i]?.bind digitVal = some h ∧ s[2 * i + 1]?.bind digitVal = some l ∧
    v[i].toNat = 16 * h + l

end Verif.Spec.Sha
