import Verif.Basic
import Verif.Model.Lib

/-! # Model of `src/rc/rc2.rs` -/

namespace Verif.Model.Rc2
open Verif

/-- The sixteen 128-bit rows of `PITABLE`, src/rc/rc2.rs:4-21. -/
def pitableRows : List Nat := [
  0xd978f9c419ddb5ed28e9fd794aa0d89d,
  0xc67e37832b76538e624c6488448bfba2,
  0x179a59f587b34f1361456d8d09817d32,
  0xbd8f40eb86b77b0bf09521225c6b4e82,
  0x54d66593ce60b21c7356c014a78cf1dc,
  0x1275ca1f3bbee4d1423dd430a33cb626,
  0x6fbf0eda4669075727f21d9bbc944303,
  0xf811c7f690ef3ee706c3d52fc8661ed7,
  0x08e8eade8052eef784aa72ac354d6a2a,
  0x961ad2715a1549744b9fd05e0418a4ec,
  0xc2e0416e0f51cbcc2491af50a1f47039,
  0x997c3a8523b8b47afc02365b25559731,
  0x2d5dfa98e38a92ae05df2910676cbac9,
  0xd300e6cfe19ea82c6316013f58e289a9,
  0x0d38341bab33ffb0bb480c5fb9b1cd2e,
  0xc5f3db47e5a59c770aa62068fe7fc1ad]

/-- `PITABLE`, src/rc/rc2.rs:1-35: byte `j` of row `i` (big endian) at position `16*i+j`. -/
def PITABLE : Vector U8 256 :=
  ⟨(pitableRows.flatMap (natToBE 16)).toArray, by decide +kernel⟩

/-- `PITABLE[b as usize]`. Used at src/rc/rc2.rs:58, 60 and 63. -/
def pi (b : U8) : U8 := PITABLE[b.toNat]'(b.isLt)

/-- `struct RC2`, src/rc/rc2.rs:37-39. -/
structure RC2 where
  key : Vector U16 64
  deriving DecidableEq

/-- First expansion loop, src/rc/rc2.rs:57-59: `for i in t..128`, here counted `i = t + k`. -/
def expand1 (t : Nat) : Nat → Nat → Vector U8 128 → R (Vector U8 128)
  | 0, _, l => .ok l
  | n + 1, i, l => do
    let a ← vidx l (← subU i 1)
    let b ← vidx l (← subU i t)
    expand1 t n (i + 1) (← vset l i (pi (a + b)))

/-- Second expansion loop, src/rc/rc2.rs:62-64: `for i in (0..n).rev()`. -/
def expand2 (t8 : Nat) : Nat → Vector U8 128 → R (Vector U8 128)
  | 0, l => .ok l
  | i + 1, l => do
    let a ← vidx l (i + 1)
    let b ← vidx l (i + t8)
    expand2 t8 i (← vset l i (pi (a ^^^ b)))

/-- `RC2::expand_key`, src/rc/rc2.rs:48-71. `num_bits` is a `u16`; `l[..key.len()]` panics for a key of
more than 128 bytes; `128 - t8` overflows for `t8 > 128`. -/
def expandKey (key : List U8) (numBits : U16) : R (Vector U16 64) := do
  if 128 < key.length then .error .index
  else
    let l : Vector U8 128 := Vector.ofFn fun i => if h : i.val < key.length then key[i.val] else 0#8
    let t := key.length
    let t8 := (numBits.toNat + 7) / 8
    let tm : U8 := 0xff#8 >>> ((0#16 - numBits) &&& 7#16).toNat
    let l ← expand1 t (128 - t) t l
    let k ← subU 128 t8
    let l ← vset l k (pi ((← vidx l k) &&& tm))
    let l ← expand2 t8 k l
    .ok (Vector.ofFn fun i => leU16 l[i.val * 2] l[i.val * 2 + 1])

/-- `RC2::from_key`, src/rc/rc2.rs:42-46. -/
def fromKey (key : List U8) (numBits : U16) : R RC2 := do .ok ⟨← expandKey key numBits⟩

/-- The rotation amounts `[1, 2, 3, 5]`, src/rc/rc2.rs:98, 108. -/
def rot (i : Nat) : Nat := if i = 0 then 1 else if i = 1 then 2 else if i = 2 then 3 else 5

/-- Index `(i + k) % 4` into the four data words. Used at src/rc/rc2.rs:99-125. -/
def d4 (d : Vector U16 4) (i : Nat) : U16 := d[i % 4]'(Nat.mod_lt _ (by decide))

/-- One iteration of `mix`, src/rc/rc2.rs:99-103; `keys` is the slice starting at `base`. -/
def mix1 (key : Vector U16 64) (base : Nat) (hb : base + 4 ≤ 64) (i : Nat) (hi : i < 4)
    (d : Vector U16 4) : Vector U16 4 :=
  d.set i ((d[i] + key[base + i] + (d4 d (i + 3) &&& d4 d (i + 2)) +
    (~~~(d4 d (i + 3)) &&& d4 d (i + 1))).rotateLeft (rot i))

/-- `RC2::mix`, src/rc/rc2.rs:97-105. -/
def mix (key : Vector U16 64) (base : Nat) (hb : base + 4 ≤ 64) (d : Vector U16 4) : Vector U16 4 :=
  Nat.fold 4 (fun i hi d => mix1 key base hb i hi d) d

/-- One iteration of `rmix`, src/rc/rc2.rs:109-112. -/
def rmix1 (key : Vector U16 64) (base : Nat) (hb : base + 4 ≤ 64) (i : Nat) (hi : i < 4)
    (d : Vector U16 4) : Vector U16 4 :=
  d.set i ((d[i]).rotateRight (rot i) - key[base + i] - (d4 d (i + 3) &&& d4 d (i + 2)) -
    (~~~(d4 d (i + 3)) &&& d4 d (i + 1)))

/-- `RC2::rmix`, src/rc/rc2.rs:107-114: the same indices in reverse order. -/
def rmix (key : Vector U16 64) (base : Nat) (hb : base + 4 ≤ 64) (d : Vector U16 4) : Vector U16 4 :=
  Nat.foldRev 4 (fun i hi d => rmix1 key base hb i hi d) d

/-- `self.key[(w & 63) as usize]`: always in range. Used at src/rc/rc2.rs:118 and 124. -/
def keyAt (key : Vector U16 64) (w : U16) : U16 :=
  key[(w &&& 63#16).toNat]'(by
    have : (w &&& 63#16).toNat ≤ 63 := by
      rw [BitVec.toNat_and]; exact Nat.and_le_right
    omega)

/-- One iteration of `mash`, src/rc/rc2.rs:118. -/
def mash1 (key : Vector U16 64) (i : Nat) (hi : i < 4) (d : Vector U16 4) : Vector U16 4 :=
  d.set i (d[i] + keyAt key (d4 d (i + 3)))

/-- `RC2::mash`, src/rc/rc2.rs:116-120. -/
def mash (key : Vector U16 64) (d : Vector U16 4) : Vector U16 4 :=
  Nat.fold 4 (fun i hi d => mash1 key i hi d) d

/-- One iteration of `rmash`, src/rc/rc2.rs:124. -/
def rmash1 (key : Vector U16 64) (i : Nat) (hi : i < 4) (d : Vector U16 4) : Vector U16 4 :=
  d.set i (d[i] - keyAt key (d4 d (i + 3)))

/-- `RC2::rmash`, src/rc/rc2.rs:122-126. -/
def rmash (key : Vector U16 64) (d : Vector U16 4) : Vector U16 4 :=
  Nat.foldRev 4 (fun i hi d => rmash1 key i hi d) d

/-- `RC2::encrypt_block`, src/rc/rc2.rs:73-83. -/
def encryptBlock (k : RC2) (d : Vector U16 4) : Vector U16 4 :=
  Nat.fold 16 (fun i hi d =>
    let d := mix k.key (4 * i) (by omega) d
    if i = 4 ∨ i = 10 then mash k.key d else d) d

/-- `RC2::decrypt_block`, src/rc/rc2.rs:85-95. -/
def decryptBlock (k : RC2) (d : Vector U16 4) : Vector U16 4 :=
  Nat.foldRev 16 (fun i hi d =>
    let d := if i = 4 ∨ i = 10 then rmash k.key d else d
    rmix k.key (4 * i) (by omega) d) d

/-- The block as four little-endian words, src/rc/rc2.rs:131-134, 144-147. -/
def split (b : Vector U8 8) : Vector U16 4 :=
  Vector.ofFn fun i => leU16 b[2 * i.val] b[2 * i.val + 1]

/-- The four words as a block, src/rc/rc2.rs:136-139, 149-152. -/
def join (d : Vector U16 4) : Vector U8 8 :=
  Vector.ofFn fun i => (d[i.val / 2]).extractLsb' (8 * (i.val % 2)) 8

/-- `BlockCipher::encrypt` for RC2, src/rc/rc2.rs:130-141. -/
def encrypt (k : RC2) (p : Vector U8 8) : Vector U8 8 := join (encryptBlock k (split p))

/-- `BlockCipher::decrypt` for RC2, src/rc/rc2.rs:143-154. -/
def decrypt (k : RC2) (p : Vector U8 8) : Vector U8 8 := join (decryptBlock k (split p))

/-- `impl BlockCipher<8> for RC2`, src/rc/rc2.rs:129-155. -/
def cipher (k : RC2) : BlockCipher 8 := ⟨fun b => .ok (encrypt k b), fun b => .ok (decrypt k b)⟩

end Verif.Model.Rc2
