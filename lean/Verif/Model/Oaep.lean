import Verif.Model.Rsa
import Verif.Model.Sha

/-! # Model of `src/rsa/mgf.rs`, `src/rsa/oaep.rs` and `src/rsa/pad.rs`

A hash function with `N`-byte digests (`trait HashFunction`, src/lib.rs:27-31, with `Output: Into<[u8; N]>`) is a function
`List U8 → R (Vector U8 N)`: it may panic (SHA-256 does for messages of 2^61 bytes or more). -/

namespace Verif.Model.Oaep
open Verif Verif.Model.Rsa

/-- Rust `a + b` on `usize` (debug profile, 64-bit target). Used at src/rsa/oaep.rs:25 and src/rsa/mgf.rs:8-10. -/
def addUsize (a b : Nat) : R Nat := if a + b < 2 ^ 64 then .ok (a + b) else .error .overflow

/-- `Vec::<u8>::with_capacity(n)`: panics ("capacity overflow") above `isize::MAX`. Running out of memory is not
modelled. Used at src/rsa/oaep.rs:32 and 47 and src/rsa/mgf.rs:8-10. -/
def withCapacity (n : Nat) : R Unit := if n < 2 ^ 63 then .ok () else .error .explicit

/-- The loop of `mgf1`, src/rsa/mgf.rs:15-19; the first argument is fuel. `hash_content` is the seed followed by the four
counter bytes, overwritten in every round (line 16). -/
def mgf1Loop {N : Nat} (hash : List U8 → R (Vector U8 N)) (seed : List U8) (outputSize : Nat) :
    Nat → List U8 → Nat → R (List U8)
  | 0, _, _ => .error .diverged
  | fuel + 1, output, counter =>
    if output.length < outputSize then do
      let digest ← hash (seed ++ natToBE 4 counter)
      let counter ← addU32 counter 1
      mgf1Loop hash seed outputSize fuel (output ++ digest.toList) counter
    else .ok output

/-- `mgf1`, src/rsa/mgf.rs:3-23. -/
def mgf1 {N : Nat} (hash : List U8 → R (Vector U8 N)) (seed : List U8) (outputSize : Nat) : R (List U8) := do
  withCapacity (← addUsize outputSize N)
  let output ← mgf1Loop hash seed outputSize (2 ^ 32 + 1) [] 0
  return output.take outputSize

/-- `xor_slices`, src/rsa/oaep.rs:92-95. -/
def xorSlices (a b : List U8) : R (List U8) :=
  if a.length = b.length then .ok ((List.range a.length).map fun i => a.getD i 0#8 ^^^ b.getD i 0#8)
  else .error .assertion

/-- `OaepPadding::encode`, src/rsa/oaep.rs:18-52. (The capacities of lines 32 and 47 are at most `n_len`; `n_len` is
checked by the call of `mgf1`.) -/
def encode {N : Nat} (hash : List U8 → R (Vector U8 N)) (label message : List U8) (nLen : Nat) : R (List U8) := do
  let labelHash ← hash label
  let sub := message.length + 2 * N + 2
  if nLen < sub then throw .explicit
  let psLen := nLen - sub
  let db := labelHash.toList ++ List.replicate psLen 0#8 ++ [1#8] ++ message
  let seed : Vector U8 N := Vector.replicate N 42#8
  let dbMask ← mgf1 hash seed.toList (nLen - N - 1)
  let maskedDb ← xorSlices db dbMask
  let seedMask ← mgf1 hash maskedDb N
  let maskedSeed ← xorSlices seed.toList seedMask
  return [0#8] ++ maskedSeed ++ maskedDb

/-- The `Err` values of `OaepPadding::decode`, src/rsa/oaep.rs:61, 75, 81, 83 (strings in the source). -/
inductive DecodeError
  | firstByteNotZero
  | wrongLabel
  | missingSeparator
  | separatorNotOne
  deriving DecidableEq, Repr

/-- `&xs[a..b]`. Used at src/rsa/oaep.rs:65-66, 74, 77 and 86. -/
def slice (xs : List U8) (a b : Nat) : R (List U8) :=
  if a ≤ b ∧ b ≤ xs.length then .ok ((xs.drop a).take (b - a)) else .error .index

/-- `OaepPadding::decode`, src/rsa/oaep.rs:54-89. -/
def decode {N : Nat} (hash : List U8 → R (Vector U8 N)) (label encoded : List U8) (nLen : Nat) :
    R (Except DecodeError (List U8)) := do
  if (← idx encoded 0) ≠ 0#8 then return .error .firstByteNotZero
  let labelHash ← hash label
  let maskedSeed ← slice encoded 1 (N + 1)
  let maskedDb ← slice encoded (N + 1) encoded.length
  let seedMask ← mgf1 hash maskedDb N
  let seed ← xorSlices maskedSeed seedMask
  let dbMask ← mgf1 hash seed (← subU (← subU nLen N) 1)
  let db ← xorSlices maskedDb dbMask
  if (← slice db 0 N) ≠ labelHash.toList then return .error .wrongLabel
  let rest ← slice db N db.length
  match rest.findIdx? (· ≠ 0#8) with
  | none => return .error .missingSeparator
  | some separatorIdx => do
    if (← idx rest separatorIdx) ≠ 1#8 then return .error .separatorNotOne
    return .ok (← slice rest (separatorIdx + 1) rest.length)

/-- `RsaPadding`, src/rsa/pad.rs:5-20: OAEP with SHA-256. -/
def rsaPadding : PaddingScheme DecodeError where
  encode := encode Sha.sha256
  decode := decode Sha.sha256

end Verif.Model.Oaep
