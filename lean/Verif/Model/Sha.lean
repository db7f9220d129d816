import Verif.Basic

/-! # Model of `src/sha/` -/

namespace Verif.Model.Sha
open Verif

/-! ## `src/sha/hash.rs` -/

/-- `struct HashValue<N>`, src/sha/hash.rs:3-4. -/
abbrev HashValue (N : Nat) := Vector U8 N

/-- The loop of `u32s_to_bytes`, src/sha/hash.rs:102-104. -/
def u32sLoop {B : Nat} : Nat → List U32 → Vector U8 B → R (Vector U8 B)
  | _, [], bytes => .ok bytes
  | i, w :: ws, bytes => do u32sLoop (i + 1) ws (← copyInto bytes (4 * i) (natToBE 4 w.toNat))

/-- `u32s_to_bytes::<W, B>`, src/sha/hash.rs:100-106; also `From<[u32; W]> for HashValue<B>`, lines 14-30. -/
def u32sToBytes {W : Nat} (B : Nat) (words : Vector U32 W) : R (HashValue B) :=
  u32sLoop 0 words.toList (Vector.replicate B 0#8)

/-- The loop of `u64s_to_bytes`, src/sha/hash.rs:110-112. -/
def u64sLoop {B : Nat} : Nat → List U64 → Vector U8 B → R (Vector U8 B)
  | _, [], bytes => .ok bytes
  | i, w :: ws, bytes => do u64sLoop (i + 1) ws (← copyInto bytes (8 * i) (natToBE 8 w.toNat))

/-- `u64s_to_bytes::<W, B>`, src/sha/hash.rs:108-114; also `From<[u64; W]> for HashValue<B>`, lines 32-42. -/
def u64sToBytes {W : Nat} (B : Nat) (words : Vector U64 W) : R (HashValue B) :=
  u64sLoop 0 words.toList (Vector.replicate B 0#8)

/-- The loop of `bytes_to_u32s`, src/sha/hash.rs:118-121. -/
def toU32sLoop {W : Nat} : Nat → List (Vector U8 4) → Vector U32 W → R (Vector U32 W)
  | _, [], words => .ok words
  | i, c :: cs, words => do toU32sLoop (i + 1) cs (← vset words i (beU32 c[0] c[1] c[2] c[3]))

/-- `bytes_to_u32s::<B, W>`, src/sha/hash.rs:116-123; also `From<HashValue<B>> for [u32; W]`, lines 46-62. -/
def bytesToU32s {B : Nat} (W : Nat) (bytes : HashValue B) : R (Vector U32 W) :=
  toU32sLoop 0 (chunksExact 4 bytes.toList) (Vector.replicate W 0#32)

/-- `<[u8; 8]>::try_from(chunk).unwrap()` on a chunk of four bytes, src/sha/hash.rs:128: the conversion checks
the length at run time. -/
def chunkToArray (k : Nat) (chunk : List U8) : R (Vector U8 k) :=
  if h : chunk.length = k then .ok ⟨chunk.toArray, by simpa using h⟩ else .error .unwrap

/-- The loop of `bytes_to_u64s`, src/sha/hash.rs:127-130. -/
def toU64sLoop {W : Nat} : Nat → List (Vector U8 4) → Vector U64 W → R (Vector U64 W)
  | _, [], words => .ok words
  | i, c :: cs, words => do
    let c ← chunkToArray 8 c.toList
    toU64sLoop (i + 1) cs (← vset words i (beU64 c[0] c[1] c[2] c[3] c[4] c[5] c[6] c[7]))

/-- `bytes_to_u64s::<B, W>`, src/sha/hash.rs:125-132; also `From<HashValue<B>> for [u64; W]`, lines 64-74. The
source really says `chunks_exact(4)`. -/
def bytesToU64s {B : Nat} (W : Nat) (bytes : HashValue B) : R (Vector U64 W) :=
  toU64sLoop 0 (chunksExact 4 bytes.toList) (Vector.replicate W 0#64)

/-- `hex::FromHexError` (crate `hex`, version in Cargo.lock). Used at src/sha/hash.rs:87. -/
inductive HexError
  | invalidHexCharacter (c : U8) (index : Nat)
  | oddLength
  | invalidStringLength
  deriving DecidableEq, Repr

/-- `hex::val` (dependency, modelled): the value of one hexadecimal digit. Used through src/sha/hash.rs:89-95. -/
def hexVal (c : U8) (i : Nat) : Except HexError U8 :=
  if 0x41#8 ≤ c ∧ c ≤ 0x46#8 then .ok (c - 0x41#8 + 10#8)
  else if 0x61#8 ≤ c ∧ c ≤ 0x66#8 then .ok (c - 0x61#8 + 10#8)
  else if 0x30#8 ≤ c ∧ c ≤ 0x39#8 then .ok (c - 0x30#8)
  else .error (.invalidHexCharacter c i)

/-- The pairs loop of `<Vec<u8> as FromHex>::from_hex` (dependency, modelled). The input has even length here. Used
through src/sha/hash.rs:89-95. -/
def hexPairs : Nat → List U8 → Except HexError (List U8)
  | i, a :: b :: rest => do
    let x ← hexVal a (2 * i)
    let y ← hexVal b (2 * i + 1)
    let r ← hexPairs (i + 1) rest
    .ok ((x <<< 4 ||| y) :: r)
  | _, _ => .ok []

/-- `Vec::<u8>::from_hex` (dependency, modelled). Used at src/sha/hash.rs:89-95. -/
def vecFromHex (hex : List U8) : Except HexError (List U8) :=
  if hex.length % 2 ≠ 0 then .error .oddLength else hexPairs 0 hex

/-- `<HashValue<N> as FromHex>::from_hex`, src/sha/hash.rs:89-95. -/
def fromHex (N : Nat) (hex : List U8) : R (Except HexError (HashValue N)) :=
  match vecFromHex hex with
  | .error e => .ok (.error e)
  | .ok bytes =>
    if bytes.length ≠ N then .ok (.error .invalidStringLength)
    else do .ok (.ok (← chunkToArray N bytes))

/-! ## `src/sha/pad.rs` -/

/-- `sha1_padding`, src/sha/pad.rs:3-17. -/
def sha1Padding (src : List U8) (messageLength : Nat) : R (Vector U8 64 × Option (Vector U8 64)) := do
  let last ← copyInto (Vector.replicate 64 0#8) 0 src
  let last ← vset last src.length 0x80#8
  if src.length < 64 - 8 then
    let last ← copyInto last (64 - 8) (natToBE 8 (← mulU64 messageLength 8))
    .ok (last, none)
  else
    let extra ← copyInto (Vector.replicate 64 0#8) (64 - 8) (natToBE 8 (← mulU64 messageLength 8))
    .ok (last, some extra)

/-! ## `src/sha/sha1.rs` -/

/-- The message schedule of `process_chunk`, src/sha/sha1.rs:17-24. -/
def sha1Schedule (chunk : Vector U8 64) : Vector U32 80 :=
  let w : Vector U32 80 := Vector.replicate 80 0#32
  let w := Nat.fold 16 (fun i hi w =>
    w.set i (beU32 chunk[4 * i] chunk[4 * i + 1] chunk[4 * i + 2] chunk[4 * i + 3])) w
  Nat.fold 64 (fun j hj w =>
    w.set (16 + j) ((w[16 + j - 3] ^^^ w[16 + j - 8] ^^^ w[16 + j - 14] ^^^ w[16 + j - 16]).rotateLeft 1)) w

/-- The five working variables. src/sha/sha1.rs:26. -/
structure Regs5 where
  a : U32
  b : U32
  c : U32
  d : U32
  e : U32
  deriving DecidableEq

/-- The body of the round loop, src/sha/sha1.rs:29-48. -/
def sha1Round (i : Nat) (w : U32) (s : Regs5) : Regs5 :=
  let (k, f) :=
    if i < 20 then (0x5A827999#32, (s.b &&& s.c) ||| (~~~s.b &&& s.d))
    else if i < 40 then (0x6ED9EBA1#32, s.b ^^^ s.c ^^^ s.d)
    else if i < 60 then (0x8F1BBCDC#32, (s.b &&& s.c) ||| (s.b &&& s.d) ||| (s.c &&& s.d))
    else (0xCA62C1D6#32, s.b ^^^ s.c ^^^ s.d)
  let temp := s.a.rotateLeft 5 + f + s.e + k + w
  ⟨temp, s.a, s.b.rotateLeft 30, s.c, s.d⟩

/-- `process_chunk`, src/sha/sha1.rs:16-56. The `unreachable!` arm is not modelled: `i` is the index in an
array of 80 elements. -/
def sha1Chunk (hash : Vector U32 5) (chunk : Vector U8 64) : Vector U32 5 :=
  let w := sha1Schedule chunk
  let s : Regs5 := ⟨hash[0], hash[1], hash[2], hash[3], hash[4]⟩
  let s := Nat.fold 80 (fun i hi s => sha1Round i w[i] s) s
  #v[hash[0] + s.a, hash[1] + s.b, hash[2] + s.c, hash[3] + s.d, hash[4] + s.e]

/-- The initial value, src/sha/sha1.rs:63. -/
def sha1Init : Vector U32 5 := #v[0x67452301#32, 0xEFCDAB89#32, 0x98BADCFE#32, 0x10325476#32, 0xC3D2E1F0#32]

/-- `sha1`, src/sha/sha1.rs:58-75, and `<Sha1 as HashFunction>::hash`, lines 11-13. -/
def sha1 (message : List U8) : R (HashValue 20) := do
  let (last, extra) ← sha1Padding (chunksRem 64 message) message.length
  let hash := (chunksExact 64 message).foldl sha1Chunk sha1Init
  let hash := sha1Chunk hash last
  let hash := match extra with
    | some extra => sha1Chunk hash extra
    | none => hash
  u32sToBytes 20 hash

/-! ## `src/sha/sha2.rs` -/

/-- `INITIAL_HASH_224`, src/sha/sha2.rs:8-12. -/
def INITIAL_HASH_224 : Vector U32 8 := #v[
  0xc1059ed8#32, 0x367cd507#32, 0x3070dd17#32, 0xf70e5939#32, 0xffc00b31#32, 0x68581511#32, 0x64f98fa7#32, 0xbefa4fa4#32]

/-- `INITIAL_HASH_256`, src/sha/sha2.rs:14-18. -/
def INITIAL_HASH_256 : Vector U32 8 := #v[
  0x6a09e667#32, 0xbb67ae85#32, 0x3c6ef372#32, 0xa54ff53a#32, 0x510e527f#32, 0x9b05688c#32, 0x1f83d9ab#32, 0x5be0cd19#32]

/-- `INITIAL_HASH_384`, src/sha/sha2.rs:20-24. -/
def INITIAL_HASH_384 : Vector U64 8 := #v[
  0xcbbb9d5dc1059ed8#64, 0x629a292a367cd507#64, 0x9159015a3070dd17#64, 0x152fecd8f70e5939#64,
  0x67332667ffc00b31#64, 0x8eb44a8768581511#64, 0xdb0c2e0d64f98fa7#64, 0x47b5481dbefa4fa4#64]

/-- `INITIAL_HASH_512`, src/sha/sha2.rs:26-30. -/
def INITIAL_HASH_512 : Vector U64 8 := #v[
  0x6a09e667f3bcc908#64, 0xbb67ae8584caa73b#64, 0x3c6ef372fe94f82b#64, 0xa54ff53a5f1d36f1#64,
  0x510e527fade682d1#64, 0x9b05688c2b3e6c1f#64, 0x1f83d9abfb41bd6b#64, 0x5be0cd19137e2179#64]

/-- `ROUND_CONSTANTS`, src/sha/sha2.rs:32-50. -/
def ROUND_CONSTANTS : Vector U32 64 := #v[
  0x428a2f98#32, 0x71374491#32, 0xb5c0fbcf#32, 0xe9b5dba5#32, 0x3956c25b#32, 0x59f111f1#32, 0x923f82a4#32, 0xab1c5ed5#32,
  0xd807aa98#32, 0x12835b01#32, 0x243185be#32, 0x550c7dc3#32, 0x72be5d74#32, 0x80deb1fe#32, 0x9bdc06a7#32, 0xc19bf174#32,
  0xe49b69c1#32, 0xefbe4786#32, 0x0fc19dc6#32, 0x240ca1cc#32, 0x2de92c6f#32, 0x4a7484aa#32, 0x5cb0a9dc#32, 0x76f988da#32,
  0x983e5152#32, 0xa831c66d#32, 0xb00327c8#32, 0xbf597fc7#32, 0xc6e00bf3#32, 0xd5a79147#32, 0x06ca6351#32, 0x14292967#32,
  0x27b70a85#32, 0x2e1b2138#32, 0x4d2c6dfc#32, 0x53380d13#32, 0x650a7354#32, 0x766a0abb#32, 0x81c2c92e#32, 0x92722c85#32,
  0xa2bfe8a1#32, 0xa81a664b#32, 0xc24b8b70#32, 0xc76c51a3#32, 0xd192e819#32, 0xd6990624#32, 0xf40e3585#32, 0x106aa070#32,
  0x19a4c116#32, 0x1e376c08#32, 0x2748774c#32, 0x34b0bcb5#32, 0x391c0cb3#32, 0x4ed8aa4a#32, 0x5b9cca4f#32, 0x682e6ff3#32,
  0x748f82ee#32, 0x78a5636f#32, 0x84c87814#32, 0x8cc70208#32, 0x90befffa#32, 0xa4506ceb#32, 0xbef9a3f7#32, 0xc67178f2#32]

/-- `ROUND_CONSTANTS_BIG`, src/sha/sha2.rs:52-74. -/
def ROUND_CONSTANTS_BIG : Vector U64 80 := #v[
  0x428a2f98d728ae22#64, 0x7137449123ef65cd#64, 0xb5c0fbcfec4d3b2f#64, 0xe9b5dba58189dbbc#64,
  0x3956c25bf348b538#64, 0x59f111f1b605d019#64, 0x923f82a4af194f9b#64, 0xab1c5ed5da6d8118#64,
  0xd807aa98a3030242#64, 0x12835b0145706fbe#64, 0x243185be4ee4b28c#64, 0x550c7dc3d5ffb4e2#64,
  0x72be5d74f27b896f#64, 0x80deb1fe3b1696b1#64, 0x9bdc06a725c71235#64, 0xc19bf174cf692694#64,
  0xe49b69c19ef14ad2#64, 0xefbe4786384f25e3#64, 0x0fc19dc68b8cd5b5#64, 0x240ca1cc77ac9c65#64,
  0x2de92c6f592b0275#64, 0x4a7484aa6ea6e483#64, 0x5cb0a9dcbd41fbd4#64, 0x76f988da831153b5#64,
  0x983e5152ee66dfab#64, 0xa831c66d2db43210#64, 0xb00327c898fb213f#64, 0xbf597fc7beef0ee4#64,
  0xc6e00bf33da88fc2#64, 0xd5a79147930aa725#64, 0x06ca6351e003826f#64, 0x142929670a0e6e70#64,
  0x27b70a8546d22ffc#64, 0x2e1b21385c26c926#64, 0x4d2c6dfc5ac42aed#64, 0x53380d139d95b3df#64,
  0x650a73548baf63de#64, 0x766a0abb3c77b2a8#64, 0x81c2c92e47edaee6#64, 0x92722c851482353b#64,
  0xa2bfe8a14cf10364#64, 0xa81a664bbc423001#64, 0xc24b8b70d0f89791#64, 0xc76c51a30654be30#64,
  0xd192e819d6ef5218#64, 0xd69906245565a910#64, 0xf40e35855771202a#64, 0x106aa07032bbd1b8#64,
  0x19a4c116b8d2d0c8#64, 0x1e376c085141ab53#64, 0x2748774cdf8eeb99#64, 0x34b0bcb5e19b48a8#64,
  0x391c0cb3c5c95a63#64, 0x4ed8aa4ae3418acb#64, 0x5b9cca4f7763e373#64, 0x682e6ff3d6b2b8a3#64,
  0x748f82ee5defb2fc#64, 0x78a5636f43172f60#64, 0x84c87814a1f0ab72#64, 0x8cc702081a6439ec#64,
  0x90befffa23631e28#64, 0xa4506cebde82bde9#64, 0xbef9a3f7b2c67915#64, 0xc67178f2e372532b#64,
  0xca273eceea26619c#64, 0xd186b8c721c0c207#64, 0xeada7dd6cde0eb1e#64, 0xf57d4f7fee6ed178#64,
  0x06f067aa72176fba#64, 0x0a637dc5a2c898a6#64, 0x113f9804bef90dae#64, 0x1b710b35131c471b#64,
  0x28db77f523047d84#64, 0x32caab7b40c72493#64, 0x3c9ebe0a15c9bebc#64, 0x431d67c49c100d4c#64,
  0x4cc5d4becb3e42b6#64, 0x597f299cfc657e2a#64, 0x5fcb6fab3ad6faec#64, 0x6c44198c4a475817#64]

/-- The message schedule of `process_chunk`, src/sha/sha2.rs:187-200. -/
def sha256Schedule (chunk : Vector U8 64) : Vector U32 64 :=
  let w : Vector U32 64 := Vector.replicate 64 0#32
  let w := Nat.fold 16 (fun i hi w =>
    w.set i (beU32 chunk[4 * i] chunk[4 * i + 1] chunk[4 * i + 2] chunk[4 * i + 3])) w
  Nat.fold 48 (fun j hj w =>
    let s0 := (w[16 + j - 15]).rotateRight 7 ^^^ (w[16 + j - 15]).rotateRight 18 ^^^ (w[16 + j - 15] >>> 3)
    let s1 := (w[16 + j - 2]).rotateRight 17 ^^^ (w[16 + j - 2]).rotateRight 19 ^^^ (w[16 + j - 2] >>> 10)
    w.set (16 + j) (w[16 + j - 16] + s0 + w[16 + j - 7] + s1)) w

/-- The eight working variables. src/sha/sha2.rs:202 and 255. -/
structure Regs8 (n : Nat) where
  a : BitVec n
  b : BitVec n
  c : BitVec n
  d : BitVec n
  e : BitVec n
  f : BitVec n
  g : BitVec n
  h : BitVec n
  deriving DecidableEq

/-- The body of the round loop of `process_chunk`, src/sha/sha2.rs:205-224. -/
def sha256Round (k w : U32) (s : Regs8 32) : Regs8 32 :=
  let s1 := s.e.rotateRight 6 ^^^ s.e.rotateRight 11 ^^^ s.e.rotateRight 25
  let ch := (s.e &&& s.f) ^^^ (~~~s.e &&& s.g)
  let temp1 := s.h + s1 + ch + k + w
  let s0 := s.a.rotateRight 2 ^^^ s.a.rotateRight 13 ^^^ s.a.rotateRight 22
  let maj := (s.a &&& s.b) ^^^ (s.a &&& s.c) ^^^ (s.b &&& s.c)
  let temp2 := s0 + maj
  ⟨temp1 + temp2, s.a, s.b, s.c, s.d + temp1, s.e, s.f, s.g⟩

/-- `process_chunk`, src/sha/sha2.rs:184-235. -/
def sha256Chunk (hash : Vector U32 8) (chunk : Vector U8 64) : Vector U32 8 :=
  let w := sha256Schedule chunk
  let s : Regs8 32 := ⟨hash[0], hash[1], hash[2], hash[3], hash[4], hash[5], hash[6], hash[7]⟩
  let s := Nat.fold 64 (fun i hi s => sha256Round ROUND_CONSTANTS[i] w[i] s) s
  #v[hash[0] + s.a, hash[1] + s.b, hash[2] + s.c, hash[3] + s.d,
     hash[4] + s.e, hash[5] + s.f, hash[6] + s.g, hash[7] + s.h]

/-- The common part of `sha224` and `sha256`, src/sha/sha2.rs:88-101 and 107-120 (`sha2_padding`, lines 163-166,
is `sha1_padding`). -/
def sha256Core (init : Vector U32 8) (message : List U8) : R (Vector U32 8) := do
  let (last, extra) ← sha1Padding (chunksRem 64 message) message.length
  let hash := (chunksExact 64 message).foldl sha256Chunk init
  let hash := sha256Chunk hash last
  .ok (match extra with
    | some extra => sha256Chunk hash extra
    | none => hash)

/-- `sha224`, src/sha/sha2.rs:87-104. -/
def sha224 (message : List U8) : R (HashValue 28) := do
  let hash ← sha256Core INITIAL_HASH_224 message
  u32sToBytes 28 (#v[hash[0], hash[1], hash[2], hash[3], hash[4], hash[5], hash[6]])

/-- `sha256`, src/sha/sha2.rs:106-123, and `<Sha256 as HashFunction>::hash`, lines 82-84. -/
def sha256 (message : List U8) : R (HashValue 32) := do u32sToBytes 32 (← sha256Core INITIAL_HASH_256 message)

/-- `sha2_padding_big`, src/sha/sha2.rs:168-182. -/
def sha2PaddingBig (src : List U8) (messageLength : Nat) : R (Vector U8 128 × Option (Vector U8 128)) := do
  let last ← copyInto (Vector.replicate 128 0#8) 0 src
  let last ← vset last src.length 0x80#8
  if src.length < 128 - 16 then
    let last ← copyInto last (128 - 16) (natToBE 16 (← mulU128 messageLength 8))
    .ok (last, none)
  else
    let extra ← copyInto (Vector.replicate 128 0#8) (128 - 16) (natToBE 16 (← mulU128 messageLength 8))
    .ok (last, some extra)

/-- The message schedule of `process_big_chunk`, src/sha/sha2.rs:240-253. -/
def sha512Schedule (chunk : Vector U8 128) : Vector U64 80 :=
  let w : Vector U64 80 := Vector.replicate 80 0#64
  let w := Nat.fold 16 (fun i hi w =>
    w.set i (beU64 chunk[8 * i] chunk[8 * i + 1] chunk[8 * i + 2] chunk[8 * i + 3]
      chunk[8 * i + 4] chunk[8 * i + 5] chunk[8 * i + 6] chunk[8 * i + 7])) w
  Nat.fold 64 (fun j hj w =>
    let s0 := (w[16 + j - 15]).rotateRight 1 ^^^ (w[16 + j - 15]).rotateRight 8 ^^^ (w[16 + j - 15] >>> 7)
    let s1 := (w[16 + j - 2]).rotateRight 19 ^^^ (w[16 + j - 2]).rotateRight 61 ^^^ (w[16 + j - 2] >>> 6)
    w.set (16 + j) (w[16 + j - 16] + s0 + w[16 + j - 7] + s1)) w

/-- The body of the round loop of `process_big_chunk`, src/sha/sha2.rs:258-277. -/
def sha512Round (k w : U64) (s : Regs8 64) : Regs8 64 :=
  let s1 := s.e.rotateRight 14 ^^^ s.e.rotateRight 18 ^^^ s.e.rotateRight 41
  let ch := (s.e &&& s.f) ^^^ (~~~s.e &&& s.g)
  let temp1 := s.h + s1 + ch + k + w
  let s0 := s.a.rotateRight 28 ^^^ s.a.rotateRight 34 ^^^ s.a.rotateRight 39
  let maj := (s.a &&& s.b) ^^^ (s.a &&& s.c) ^^^ (s.b &&& s.c)
  let temp2 := s0 + maj
  ⟨temp1 + temp2, s.a, s.b, s.c, s.d + temp1, s.e, s.f, s.g⟩

/-- `process_big_chunk`, src/sha/sha2.rs:237-288. -/
def sha512Chunk (hash : Vector U64 8) (chunk : Vector U8 128) : Vector U64 8 :=
  let w := sha512Schedule chunk
  let s : Regs8 64 := ⟨hash[0], hash[1], hash[2], hash[3], hash[4], hash[5], hash[6], hash[7]⟩
  let s := Nat.fold 80 (fun i hi s => sha512Round ROUND_CONSTANTS_BIG[i] w[i] s) s
  #v[hash[0] + s.a, hash[1] + s.b, hash[2] + s.c, hash[3] + s.d,
     hash[4] + s.e, hash[5] + s.f, hash[6] + s.g, hash[7] + s.h]

/-- The common part of `sha384` and `sha512`, src/sha/sha2.rs:126-139 and 145-158. -/
def sha512Core (init : Vector U64 8) (message : List U8) : R (Vector U64 8) := do
  let (last, extra) ← sha2PaddingBig (chunksRem 128 message) message.length
  let hash := (chunksExact 128 message).foldl sha512Chunk init
  let hash := sha512Chunk hash last
  .ok (match extra with
    | some extra => sha512Chunk hash extra
    | none => hash)

/-- `sha384`, src/sha/sha2.rs:125-142. -/
def sha384 (message : List U8) : R (HashValue 48) := do
  let hash ← sha512Core INITIAL_HASH_384 message
  u64sToBytes 48 (#v[hash[0], hash[1], hash[2], hash[3], hash[4], hash[5]])

/-- `sha512`, src/sha/sha2.rs:144-161. -/
def sha512 (message : List U8) : R (HashValue 64) := do u64sToBytes 64 (← sha512Core INITIAL_HASH_512 message)

end Verif.Model.Sha
