import Verif.Basic
import Verif.Model.Lib

/-! # Model of `src/rc/rc5.rs` -/

namespace Verif.Model.Rc5
open Verif

/-- `P32`, src/rc/rc5.rs:3. -/
def P32 : U32 := 0xb7e15163#32
/-- `Q32`, src/rc/rc5.rs:4. -/
def Q32 : U32 := 0x9e3779b9#32

/-- `struct RC5`, src/rc/rc5.rs:6-9. `s` is a `Vec<u32>`, `r` a `u8`. -/
structure RC5 where
  s : List U32
  r : U8
  deriving DecidableEq

/-- The `for chunk in key.chunks(4)` loop, src/rc/rc5.rs:20-25: four bytes at a time, the last word
zero-filled, little endian. -/
def keyWords : List U8 → List U32
  | [] => []
  | [a] => [leU32 a 0 0 0]
  | [a, b] => [leU32 a b 0 0]
  | [a, b, c] => [leU32 a b c 0]
  | a :: b :: c :: d :: rest => leU32 a b c d :: keyWords rest

/-- The `s` table before mixing, src/rc/rc5.rs:28-33: `P32` then repeatedly plus `Q32`. -/
def initTable : Nat → U32 → List U32
  | 0, _ => []
  | n + 1, v => v :: initTable n (v + Q32)

/-- Loop variables of the mixing loop, src/rc/rc5.rs:35-38 with the two arrays. -/
structure Mix where
  s : List U32
  l : List U32
  i : Nat
  j : Nat
  a : U32
  b : U32
  deriving DecidableEq

/-- Body of the mixing loop, src/rc/rc5.rs:41-50. Indexing a `Vec` out of range and `% 0` panic. -/
def mixStep (t c : Nat) (m : Mix) : R Mix := do
  let si ← idx m.s m.i
  let a := (si + (m.a + m.b)).rotateLeft 3
  let s := m.s.set m.i a
  let ab := a + m.b
  let lj ← idx m.l m.j
  let b := (lj + ab).rotateLeft ab.toNat
  let l := m.l.set m.j b
  if t = 0 then .error .divZero
  else if c = 0 then .error .divZero
  else .ok ⟨s, l, (m.i + 1) % t, (m.j + 1) % c, a, b⟩

/-- `for _ in 0..n { mixStep }`. src/rc/rc5.rs:40-51. -/
def mixLoop (t c : Nat) : Nat → Mix → R Mix
  | 0, m => .ok m
  | n + 1, m => do mixLoop t c n (← mixStep t c m)

/-- `RC5::expand_key`, src/rc/rc5.rs:18-54. -/
def expandKey (key : List U8) (r : U8) : R (List U32) := do
  let c := (key.length + 3) / 4
  let l := keyWords key
  let t := 2 * (r.toNat + 1)
  let s := initTable t P32
  let m ← mixLoop t c (3 * max t c) ⟨s, l, 0, 0, 0#32, 0#32⟩
  .ok m.s

/-- `RC5::new`, src/rc/rc5.rs:12-16. -/
def new (key : List U8) (rounds : U8) : R RC5 := do
  if key.length < 256 then
    let s ← expandKey key rounds
    .ok ⟨s, rounds⟩
  else .error .assertion

/-- The encryption rounds `i, i+1, .., i+n-1`, src/rc/rc5.rs:61-64. -/
def encRounds (s : List U32) : Nat → Nat → U32 × U32 → R (U32 × U32)
  | 0, _, ab => .ok ab
  | n + 1, i, (a, b) => do
    let a := ((a ^^^ b).rotateLeft b.toNat) + (← idx s (2 * i))
    let b := ((b ^^^ a).rotateLeft a.toNat) + (← idx s (2 * i + 1))
    encRounds s n (i + 1) (a, b)

/-- `RC5::encrypt_32`, src/rc/rc5.rs:56-67. -/
def encrypt32 (k : RC5) (a b : U32) : R (U32 × U32) := do
  let a := a + (← idx k.s 0)
  let b := b + (← idx k.s 1)
  encRounds k.s k.r.toNat 1 (a, b)

/-- The decryption rounds `n, n-1, .., 1`, src/rc/rc5.rs:72-75. -/
def decRounds (s : List U32) : Nat → U32 × U32 → R (U32 × U32)
  | 0, ab => .ok ab
  | i + 1, (a, b) => do
    let b := (b - (← idx s (2 * (i + 1) + 1))).rotateRight a.toNat ^^^ a
    let a := (a - (← idx s (2 * (i + 1)))).rotateRight b.toNat ^^^ b
    decRounds s i (a, b)

/-- `RC5::decrypt_32`, src/rc/rc5.rs:69-80. -/
def decrypt32 (k : RC5) (a b : U32) : R (U32 × U32) := do
  let (a, b) ← decRounds k.s k.r.toNat (a, b)
  let b := b - (← idx k.s 1)
  let a := a - (← idx k.s 0)
  .ok (a, b)

/-- Byte `i` (counted from the least significant) of a `u32`: `x.to_le_bytes()[i]`. Used at src/rc/rc5.rs:91-92 and
103-104. -/
def byteLE (x : U32) (i : Nat) : U8 := x.extractLsb' (8 * i) 8

/-- The two little-endian words as an 8-byte block, src/rc/rc5.rs:90-93, 102-105. -/
def joinBlock (a b : U32) : Vector U8 8 :=
  #v[byteLE a 0, byteLE a 1, byteLE a 2, byteLE a 3, byteLE b 0, byteLE b 1, byteLE b 2, byteLE b 3]

/-- `BlockCipher::encrypt` for RC5, src/rc/rc5.rs:84-94. -/
def encrypt (k : RC5) (p : Vector U8 8) : R (Vector U8 8) := do
  let a := leU32 p[0] p[1] p[2] p[3]
  let b := leU32 p[4] p[5] p[6] p[7]
  let (a, b) ← encrypt32 k a b
  .ok (joinBlock a b)

/-- `BlockCipher::decrypt` for RC5, src/rc/rc5.rs:96-106. -/
def decrypt (k : RC5) (p : Vector U8 8) : R (Vector U8 8) := do
  let a := leU32 p[0] p[1] p[2] p[3]
  let b := leU32 p[4] p[5] p[6] p[7]
  let (a, b) ← decrypt32 k a b
  .ok (joinBlock a b)

/-- `impl BlockCipher<8> for RC5`, src/rc/rc5.rs:83-107. -/
def cipher (k : RC5) : BlockCipher 8 := ⟨encrypt k, decrypt k⟩

end Verif.Model.Rc5
