import Verif.Model.Oaep

/-! # OAEP and RSA messages for any width of `usize`

The other models of `src/rsa/mgf.rs`, `src/rsa/oaep.rs` and of the messages of `src/rsa/mod.rs` fix 64-bit targets; here the
width `w` of `usize` is a parameter. A `Vec` has at most `2^(w-1) - 1` bytes. Arithmetic panics on overflow (debug builds).
`BigUint` and SHA-256 are those of the other models: `BigUint` counts bits with `u32` and SHA-256 bytes with `u64`
(src/big/uint.rs:65-70, src/sha/sha2.rs:109) on all targets. -/

namespace Verif.Model.OaepWidth
open Verif Verif.Model.Big
open _root_.Verif.Model.Oaep (mgf1Loop xorSlices slice DecodeError)
open _root_.Verif.Model.Rsa (RsaEncryption PaddingScheme encrypt decrypt unwrapResult)

/-- Rust `a + b` on a `w`-bit `usize`. Used for src/rsa/mgf.rs:8-10 and src/rsa/oaep.rs:25. -/
def addU (w a b : Nat) : R Nat := if a + b < 2 ^ w then .ok (a + b) else .error .overflow

/-- `Vec::<u8>::with_capacity(n)` where `usize` has `w` bits: panics above `isize::MAX`. Used for src/rsa/mgf.rs:8-10 and
src/rsa/oaep.rs:32 and 47. -/
def withCapacity (w n : Nat) : R Unit := if n < 2 ^ (w - 1) then .ok () else .error .explicit

/-- `mgf1`, src/rsa/mgf.rs:3-23. -/
def mgf1 (w : Nat) {N : Nat} (hash : List U8 → R (Vector U8 N)) (seed : List U8) (outputSize : Nat) : R (List U8) := do
  withCapacity w (← addU w outputSize N)
  withCapacity w (← addU w seed.length 4)
  let output ← mgf1Loop hash seed outputSize (2 ^ 32 + 1) [] 0
  return output.take outputSize

/-- `OaepPadding::encode`, src/rsa/oaep.rs:18-52. (The products and sums of constants in lines 25 and 32 are computed from
`N`, which is below `2^(w-2)` for every array that fits twice in memory.) -/
def encode (w : Nat) {N : Nat} (hash : List U8 → R (Vector U8 N)) (label message : List U8) (nLen : Nat) : R (List U8) := do
  let labelHash ← hash label
  let sub ← addU w (← addU w message.length (2 * N)) 2
  if nLen < sub then throw .explicit
  let psLen := nLen - sub
  withCapacity w (nLen - N - 1)
  let db := labelHash.toList ++ List.replicate psLen 0#8 ++ [1#8] ++ message
  let seed : Vector U8 N := Vector.replicate N 42#8
  let dbMask ← mgf1 w hash seed.toList (nLen - N - 1)
  let maskedDb ← xorSlices db dbMask
  let seedMask ← mgf1 w hash maskedDb N
  let maskedSeed ← xorSlices seed.toList seedMask
  withCapacity w nLen
  return [0#8] ++ maskedSeed ++ maskedDb

/-- `OaepPadding::decode`, src/rsa/oaep.rs:54-89. -/
def decode (w : Nat) {N : Nat} (hash : List U8 → R (Vector U8 N)) (label encoded : List U8) (nLen : Nat) :
    R (Except DecodeError (List U8)) := do
  if (← idx encoded 0) ≠ 0#8 then return .error .firstByteNotZero
  let labelHash ← hash label
  let n1 ← addU w N 1
  let maskedSeed ← slice encoded 1 n1
  let maskedDb ← slice encoded n1 encoded.length
  let seedMask ← mgf1 w hash maskedDb N
  let seed ← xorSlices maskedSeed seedMask
  let dbMask ← mgf1 w hash seed (← subU (← subU nLen N) 1)
  let db ← xorSlices maskedDb dbMask
  if (← slice db 0 N) ≠ labelHash.toList then return .error .wrongLabel
  let rest ← slice db N db.length
  match rest.findIdx? (· ≠ 0#8) with
  | none => return .error .missingSeparator
  | some separatorIdx => do
    if (← idx rest separatorIdx) ≠ 1#8 then return .error .separatorNotOne
    return .ok (← slice rest (← addU w separatorIdx 1) rest.length)

/-- `RsaPadding`, src/rsa/pad.rs:5-20. -/
def rsaPadding (w : Nat) : PaddingScheme DecodeError where
  encode := encode w Sha.sha256
  decode := decode w Sha.sha256

/-- `RsaEncryption::encrypt_message`, src/rsa/mod.rs:121-133: `bits_used() - 1` is a `u32` that is cut to `w` bits by
`as usize`. -/
def encryptMessage {ε : Type} (w : Nat) (cap : Nat → Nat) (self : RsaEncryption) (plaintext : List U8)
    (padding : PaddingScheme ε) : R (List U8) := do
  let m ← padding.encode [] plaintext (← addU w ((← subU (← bitsUsed self.modulo) 1) % 2 ^ w / 8) 1)
  let m ← fromBeBytes m
  if (← cmp m self.modulo) ≠ .lt then throw .assertion
  return toBeBytes (← encrypt cap self m)

/-- `RsaEncryption::decrypt_message`, src/rsa/mod.rs:139-147, does not add or convert numbers of type `usize`. -/
def decryptMessage {ε : Type} (cap : Nat → Nat) (self : RsaEncryption) (ciphertext : List U8) (padding : PaddingScheme ε) :
    R (List U8) := Rsa.decryptMessage cap self ciphertext padding

end Verif.Model.OaepWidth
