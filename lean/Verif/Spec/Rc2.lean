import Verif.Basic

/-! # RC2 as defined by RFC 2268

Key buffers are functions from indices to bytes and the key expansion is given as a relation (the
equations the RFC's loops establish), the rounds act on four named words. -/

namespace Verif.Spec.Rc2
open Verif

/-- RFC 2268 §2, PITABLE, sixteen rows of sixteen bytes. -/
def PITABLE : List Nat := [
  0xd9, 0x78, 0xf9, 0xc4, 0x19, 0xdd, 0xb5, 0xed, 0x28, 0xe9, 0xfd, 0x79, 0x4a, 0xa0, 0xd8, 0x9d,
  0xc6, 0x7e, 0x37, 0x83, 0x2b, 0x76, 0x53, 0x8e, 0x62, 0x4c, 0x64, 0x88, 0x44, 0x8b, 0xfb, 0xa2,
  0x17, 0x9a, 0x59, 0xf5, 0x87, 0xb3, 0x4f, 0x13, 0x61, 0x45, 0x6d, 0x8d, 0x09, 0x81, 0x7d, 0x32,
  0xbd, 0x8f, 0x40, 0xeb, 0x86, 0xb7, 0x7b, 0x0b, 0xf0, 0x95, 0x21, 0x22, 0x5c, 0x6b, 0x4e, 0x82,
  0x54, 0xd6, 0x65, 0x93, 0xce, 0x60, 0xb2, 0x1c, 0x73, 0x56, 0xc0, 0x14, 0xa7, 0x8c, 0xf1, 0xdc,
  0x12, 0x75, 0xca, 0x1f, 0x3b, 0xbe, 0xe4, 0xd1, 0x42, 0x3d, 0xd4, 0x30, 0xa3, 0x3c, 0xb6, 0x26,
  0x6f, 0xbf, 0x0e, 0xda, 0x46, 0x69, 0x07, 0x57, 0x27, 0xf2, 0x1d, 0x9b, 0xbc, 0x94, 0x43, 0x03,
  0xf8, 0x11, 0xc7, 0xf6, 0x90, 0xef, 0x3e, 0xe7, 0x06, 0xc3, 0xd5, 0x2f, 0xc8, 0x66, 0x1e, 0xd7,
  0x08, 0xe8, 0xea, 0xde, 0x80, 0x52, 0xee, 0xf7, 0x84, 0xaa, 0x72, 0xac, 0x35, 0x4d, 0x6a, 0x2a,
  0x96, 0x1a, 0xd2, 0x71, 0x5a, 0x15, 0x49, 0x74, 0x4b, 0x9f, 0xd0, 0x5e, 0x04, 0x18, 0xa4, 0xec,
  0xc2, 0xe0, 0x41, 0x6e, 0x0f, 0x51, 0xcb, 0xcc, 0x24, 0x91, 0xaf, 0x50, 0xa1, 0xf4, 0x70, 0x39,
  0x99, 0x7c, 0x3a, 0x85, 0x23, 0xb8, 0xb4, 0x7a, 0xfc, 0x02, 0x36, 0x5b, 0x25, 0x55, 0x97, 0x31,
  0x2d, 0x5d, 0xfa, 0x98, 0xe3, 0x8a, 0x92, 0xae, 0x05, 0xdf, 0x29, 0x10, 0x67, 0x6c, 0xba, 0xc9,
  0xd3, 0x00, 0xe6, 0xcf, 0xe1, 0x9e, 0xa8, 0x2c, 0x63, 0x16, 0x01, 0x3f, 0x58, 0xe2, 0x89, 0xa9,
  0x0d, 0x38, 0x34, 0x1b, 0xab, 0x33, 0xff, 0xb0, 0xbb, 0x48, 0x0c, 0x5f, 0xb9, 0xb1, 0xcd, 0x2e,
  0xc5, 0xf3, 0xdb, 0x47, 0xe5, 0xa5, 0x9c, 0x77, 0x0a, 0xa6, 0x20, 0x68, 0xfe, 0x7f, 0xc1, 0xad]

/-- `PITABLE[b]`. -/
def pi (b : U8) : U8 := BitVec.ofNat 8 (PITABLE.getD b.toNat 0)

/-- `T8 = (T1+7)/8`. -/
def T8 (bits : Nat) : Nat := (bits + 7) / 8

/-- `TM = 255 MOD 2^(8 + T1 - 8*T8)`. -/
def TM (bits : Nat) : U8 := BitVec.ofNat 8 (255 % 2 ^ (8 + bits - 8 * T8 bits))

/-- RFC 2268 §2: `L1` is the key buffer after the first loop, `L2` the buffer at the end. -/
structure Expansion (key : List U8) (bits : Nat) (L1 L2 : Nat → U8) : Prop where
  /-- the key is placed in bytes `0 .. T-1` -/
  init : ∀ i (h : i < key.length), L1 i = key[i]
  /-- `for i = T, ..., 127: L[i] = PITABLE[L[i-1] + L[i-T]]` -/
  loop1 : ∀ i, key.length ≤ i → i < 128 → L1 i = pi (L1 (i - 1) + L1 (i - key.length))
  /-- the bytes after position `128 - T8` stay -/
  keep : ∀ i, 128 - T8 bits < i → i < 128 → L2 i = L1 i
  /-- `L[128-T8] = PITABLE[L[128-T8] & TM]` -/
  mask : L2 (128 - T8 bits) = pi (L1 (128 - T8 bits) &&& TM bits)
  /-- `for i = 127-T8, ..., 0: L[i] = PITABLE[L[i+1] XOR L[i+T8]]` -/
  loop2 : ∀ i, i < 128 - T8 bits → L2 i = pi (L2 (i + 1) ^^^ L2 (i + T8 bits))

/-- `K[i] = L[2i] + 256 * L[2i+1]`. -/
def keyWord (L : Nat → U8) (i : Nat) : U16 := BitVec.ofNat 16 ((L (2 * i)).toNat + 256 * (L (2 * i + 1)).toNat)

/-- The four words `R[0..3]`. -/
structure Regs where
  r0 : U16
  r1 : U16
  r2 : U16
  r3 : U16
  deriving DecidableEq

/-- RFC 2268 §3.1 "Mix up R[i]": `x` is `R[i]`, `p1 p2 p3` are `R[i-1] R[i-2] R[i-3]`. -/
def mixUp (k x p1 p2 p3 : U16) (s : Nat) : U16 := (x + k + (p1 &&& p2) + (~~~p1 &&& p3)).rotateLeft s

/-- §3.2 mixing round, using key words `K[j] .. K[j+3]`. -/
def mixRound (K : Nat → U16) (j : Nat) (R : Regs) : Regs :=
  let r0 := mixUp (K j) R.r0 R.r3 R.r2 R.r1 1
  let r1 := mixUp (K (j + 1)) R.r1 r0 R.r3 R.r2 2
  let r2 := mixUp (K (j + 2)) R.r2 r1 r0 R.r3 3
  let r3 := mixUp (K (j + 3)) R.r3 r2 r1 r0 5
  ⟨r0, r1, r2, r3⟩

/-- §3.3, 3.4 mashing round: `R[i] = R[i] + K[R[i-1] & 63]`. -/
def mashRound (K : Nat → U16) (R : Regs) : Regs :=
  let r0 := R.r0 + K (R.r3.toNat % 64)
  let r1 := R.r1 + K (r0.toNat % 64)
  let r2 := R.r2 + K (r1.toNat % 64)
  let r3 := R.r3 + K (r2.toNat % 64)
  ⟨r0, r1, r2, r3⟩

/-- `n` mixing rounds starting with key word `j`. -/
def mixRounds (K : Nat → U16) : Nat → Nat → Regs → Regs
  | 0, _, R => R
  | n + 1, j, R => mixRounds K n (j + 4) (mixRound K j R)

/-- §3.5: five mixing rounds, a mashing round, six mixing rounds, a mashing round, five mixing rounds. -/
def encRegs (K : Nat → U16) (R : Regs) : Regs :=
  mixRounds K 5 44 (mashRound K (mixRounds K 6 20 (mashRound K (mixRounds K 5 0 R))))

/-- A block as four words, low-order byte first. -/
def toRegs (b : Vector U8 8) : Regs :=
  ⟨BitVec.ofNat 16 (b[0].toNat + 256 * b[1].toNat), BitVec.ofNat 16 (b[2].toNat + 256 * b[3].toNat),
   BitVec.ofNat 16 (b[4].toNat + 256 * b[5].toNat), BitVec.ofNat 16 (b[6].toNat + 256 * b[7].toNat)⟩

/-- The bytes of the four words. -/
def ofRegs (R : Regs) : List U8 :=
  natToLE 2 R.r0.toNat ++ natToLE 2 R.r1.toNat ++ natToLE 2 R.r2.toNat ++ natToLE 2 R.r3.toNat

end Verif.Spec.Rc2
