import Verif.Basic

/-! # MGF1 and EME-OAEP as in RFC 8017

The hash function is an arbitrary function with digests of `N` bytes (`hLen` in the RFC). -/

namespace Verif.Spec.Oaep
open Verif

/-- I2OSP (C, 4). -/
def i2osp4 (c : Nat) : List U8 :=
  [BitVec.ofNat 8 (c / 2 ^ 24), BitVec.ofNat 8 (c / 2 ^ 16), BitVec.ofNat 8 (c / 2 ^ 8), BitVec.ofNat 8 c]

/-- MGF1 (RFC 8017, B.2.1): the leading `len` bytes of `Hash(seed ‖ C₀) ‖ Hash(seed ‖ C₁) ‖ …`, with counters from 0 to
`⌈len / hLen⌉ - 1`. -/
def mgf1 {N : Nat} (h : List U8 → Vector U8 N) (seed : List U8) (len : Nat) : List U8 :=
  ((List.range ((len + N - 1) / N)).flatMap fun c => (h (seed ++ i2osp4 c)).toList).take len

/-- Bytewise exclusive or. -/
def xor (a b : List U8) : List U8 := List.zipWith (· ^^^ ·) a b

/-- The data block of the RFC (7.1.1, step 2a-c): `lHash ‖ PS ‖ 0x01 ‖ M`, of `k - hLen - 1` bytes. -/
def dataBlock {N : Nat} (h : List U8 → Vector U8 N) (label message : List U8) (k : Nat) : List U8 :=
  (h label).toList ++ List.replicate (k - message.length - 2 * N - 2) 0#8 ++ [1#8] ++ message

/-- EME-OAEP encoding (RFC 8017, 7.1.1, step 2) with the given seed. -/
def encode {N : Nat} (h : List U8 → Vector U8 N) (seed label message : List U8) (k : Nat) : List U8 :=
  let maskedDB := xor (dataBlock h label message k) (mgf1 h seed (k - N - 1))
  let maskedSeed := xor seed (mgf1 h maskedDB N)
  0#8 :: maskedSeed ++ maskedDB

end Verif.Spec.Oaep
