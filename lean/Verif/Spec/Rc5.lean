import Verif.Basic

/-! # RC5-32/r/b as defined by Rivest ("The RC5 Encryption Algorithm", 1995; RFC 2040)

Tables are functions from indices to words, so nothing about bounds or array lengths is presupposed. -/

namespace Verif.Spec.Rc5
open Verif

/-- `w = 32`: the magic constant `P32 = Odd((e-2)·2^32)`; see `C16_P32_is_odd_e` for the equation. -/
def P : U32 := BitVec.ofNat 32 3084996963
/-- `Q32 = Odd((φ-1)·2^32)`. -/
def Q : U32 := BitVec.ofNat 32 2654435769

/-- Store a word in a table. -/
def put (T : Nat → U32) (i : Nat) (v : U32) : Nat → U32 := fun k => if k = i then v else T k

/-- Word `k` of the secret key: bytes `4k .. 4k+3`, low-order byte first, bytes past the end are zero. -/
def keyWord (K : List U8) (k : Nat) : U32 :=
  BitVec.ofNat 32 ((K.getD (4 * k) 0).toNat + 256 * (K.getD (4 * k + 1) 0).toNat +
    65536 * (K.getD (4 * k + 2) 0).toNat + 16777216 * (K.getD (4 * k + 3) 0).toNat)

/-- State of the key mixing: tables `S`, `L` and registers `A`, `B`. -/
structure MixSt where
  S : Nat → U32
  L : Nat → U32
  A : U32
  B : U32

/-- Mixing in the secret key: the state after `n` iterations; iteration `n` works on `i = n mod t` and
`j = n mod c`. -/
def mixed (K : List U8) (t c : Nat) : Nat → MixSt
  | 0 => ⟨fun i => P + BitVec.ofNat 32 i * Q, keyWord K, 0, 0⟩
  | n + 1 =>
    let m := mixed K t c n
    let A := (m.S (n % t) + m.A + m.B).rotateLeft 3
    let B := (m.L (n % c) + A + m.B).rotateLeft ((A + m.B).toNat % 32)
    ⟨put m.S (n % t) A, put m.L (n % c) B, A, B⟩

/-- The expanded key table for `r` rounds: `t = 2(r+1)` words, `c = ceil(b/4)`, `3·max(t,c)` iterations. -/
def table (K : List U8) (r : Nat) : Nat → U32 :=
  let t := 2 * (r + 1)
  let c := (K.length + 3) / 4
  (mixed K t c (3 * max t c)).S

/-- Encryption of two words: the state after round `n`. -/
def encWords (S : Nat → U32) (A B : U32) : Nat → U32 × U32
  | 0 => (A + S 0, B + S 1)
  | n + 1 =>
    let (a, b) := encWords S A B n
    let a' := (a ^^^ b).rotateLeft (b.toNat % 32) + S (2 * (n + 1))
    let b' := (b ^^^ a').rotateLeft (a'.toNat % 32) + S (2 * (n + 1) + 1)
    (a', b')

/-- The number four bytes denote, low-order byte first. -/
def word (b0 b1 b2 b3 : U8) : U32 :=
  BitVec.ofNat 32 (b0.toNat + 256 * b1.toNat + 65536 * b2.toNat + 16777216 * b3.toNat)

/-- The 8 bytes of two words, low-order byte first. -/
def bytes (A B : U32) : List U8 := natToLE 4 A.toNat ++ natToLE 4 B.toNat

/-- The block transformation RC5-32/r/b. -/
def encBlock (K : List U8) (r : Nat) (p : Vector U8 8) : List U8 :=
  let (A, B) := encWords (table K r) (word p[0] p[1] p[2] p[3]) (word p[4] p[5] p[6] p[7]) r
  bytes A B

end Verif.Spec.Rc5
