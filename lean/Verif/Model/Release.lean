import Verif.Model.Pem
import Verif.Model.Rc2
import Verif.Model.Md

/-! # The code compiled without overflow checks

The other modules of the model are the code compiled with overflow checks (Cargo's `dev` and `test` profiles): `+`, `-` and
`*` panic when the result does not fit. In Cargo's `release` profile they wrap around instead. This module models the
functions that can tell the difference: the ones with an operation that overflows for some input, and their callers. All
other functions of the model never return `Panic.overflow` (C106) and are the same in both profiles. Definitions have the names of
the ones they replace, with the same source lines. -/

namespace Verif.Model.Release
open Verif

/-- Rust `a + b` on a `w`-bit unsigned type (release profile). Used for src/md/md4.rs:35, src/md/md5.rs:35,
src/big/uint.rs:69 and src/rsa/mgf.rs:8-20. -/
def addW (w a b : Nat) : Nat := (a + b) % 2 ^ w
/-- Rust `a - b` on a `w`-bit unsigned type, `a` and `b` being values of that type (release profile). Used for
src/pad.rs, src/md/md4.rs:56-62, src/md/md5.rs:56-62, src/rc/rc2.rs:57-63, src/pem/asn1.rs:20, src/big/uint.rs,
src/rsa/mod.rs and src/rsa/oaep.rs:71. -/
def subW (w a b : Nat) : Nat := if b ≤ a then a - b else a + 2 ^ w - b
/-- Rust `a * b` on a `w`-bit unsigned type (release profile). Used for src/sha/pad.rs, src/md/md4.rs:55,
src/md/md5.rs:55, src/big/uint.rs:60-70 and src/rsa/mod.rs:48, 187 and 196. -/
def mulW (w a b : Nat) : Nat := a * b % 2 ^ w
/-- The result of an `i128` operation (release profile): the representative modulo 2^128 between -2^127 and 2^127 - 1.
Used for src/rsa/mod.rs:197 and 205. -/
def i128W (t : Int) : Int := (t + 2 ^ 127) % 2 ^ 128 - 2 ^ 127

/-! ## Padding -/

/-- `PkcsPadding::<N>::unpad`, src/pad.rs:45-51. For `N = 0`, `block[N - 1]` is beyond the end. (`BlockEncryption` does not
get here with `N = 0`.) -/
def pkcsUnpad (N : Nat) (block : Vector U8 N) : R Nat := do
  let amt ← vidx block (subW 64 N 1)
  if N < amt.toNat then throw .explicit
  return subW 64 N amt.toNat

/-! ## SHA-1, SHA-224, SHA-256

(SHA-384 and SHA-512 compute the length in 128 bits, which does not overflow.) -/
section Sha
open _root_.Verif.Model.Sha (HashValue u32sToBytes sha1Chunk sha1Init sha256Chunk INITIAL_HASH_224 INITIAL_HASH_256)

/-- `sha1_padding`, src/sha/pad.rs:3-17. -/
def sha1Padding (src : List U8) (messageLength : Nat) : R (Vector U8 64 × Option (Vector U8 64)) := do
  let last ← copyInto (Vector.replicate 64 0#8) 0 src
  let last ← vset last src.length 0x80#8
  if src.length < 64 - 8 then
    let last ← copyInto last (64 - 8) (natToBE 8 (mulW 64 messageLength 8))
    .ok (last, none)
  else
    let extra ← copyInto (Vector.replicate 64 0#8) (64 - 8) (natToBE 8 (mulW 64 messageLength 8))
    .ok (last, some extra)

/-- `sha1`, src/sha/sha1.rs:58-75. -/
def sha1 (message : List U8) : R (HashValue 20) := do
  let (last, extra) ← sha1Padding (chunksRem 64 message) message.length
  let hash := (chunksExact 64 message).foldl sha1Chunk sha1Init
  let hash := sha1Chunk hash last
  let hash := match extra with
    | some extra => sha1Chunk hash extra
    | none => hash
  u32sToBytes 20 hash

/-- The common part of `sha224` and `sha256`, src/sha/sha2.rs:88-101 and 107-120. -/
def sha256Core (init : Vector U32 8) (message : List U8) : R (Vector U32 8) := do
  let (last, extra) ← sha1Padding (chunksRem 64 message) message.length
  let hash := (chunksExact 64 message).foldl sha256Chunk init
  let hash := sha256Chunk hash last
  .ok (match extra with
    | some extra => sha256Chunk hash extra
    | none => hash)

/-- `sha224`, src/sha/sha2.rs:87-104. -/
def sha224 (message : List U8) : R (HashValue 28) := do
  let hash ← sha256Core INITIAL_HASH_224 message
  u32sToBytes 28 (#v[hash[0], hash[1], hash[2], hash[3], hash[4], hash[5], hash[6]])

/-- `sha256`, src/sha/sha2.rs:106-123. -/
def sha256 (message : List U8) : R (HashValue 32) := do u32sToBytes 32 (← sha256Core INITIAL_HASH_256 message)

end Sha

/-! ## MD4 and MD5 -/
section Md
open _root_.Verif.Model.Md (Hasher Abcd)

/-- `Hasher::consume`, src/md/md4.rs:34-40, src/md/md5.rs:34-40. -/
def consume (process : Vector U32 16 → Abcd → R Abcd) (h : Hasher) (byte : U8) : R Hasher :=
  let h := { h with bytesConsumed := addW 64 h.bytesConsumed 1, unprocessed := h.unprocessed ++ [byte] }
  if h.unprocessed.length = 64 then h.processBlock process else .ok h

/-- The number of padding bytes, src/md/md4.rs:56-59, src/md/md5.rs:56-59. -/
def numPadBytes (a : Nat) : Nat := if a = 56 then 64 else subW 64 (64 + 56) a % 64

/-- `Hasher::finish`, src/md/md4.rs:54-75, src/md/md5.rs:54-75. -/
def finish (process : Vector U32 16 → Abcd → R Abcd) (h : Hasher) : R (Vector U8 16) := do
  let bits := mulW 64 h.bytesConsumed 8
  let pad := numPadBytes h.unprocessed.length
  let h ← consume process h 0x80#8
  let h ← (List.replicate (subW 64 pad 1) 0#8).foldlM (consume process) h
  let h ← (natToLE 8 bits).foldlM (consume process) h
  let out ← copyInto (Vector.replicate 16 0#8) 0 (natToLE 4 h.s.a.toNat)
  let out ← copyInto out 4 (natToLE 4 h.s.b.toNat)
  let out ← copyInto out 8 (natToLE 4 h.s.c.toNat)
  copyInto out 12 (natToLE 4 h.s.d.toNat)

/-- `hash`, src/md/md4.rs:1-9, src/md/md5.rs:1-9. -/
def mdHash (process : Vector U32 16 → Abcd → R Abcd) (data : List U8) : R (Vector U8 16) := do
  finish process (← data.foldlM (consume process) Hasher.new)

/-- `md4::hash`, src/md/md4.rs:1-9. -/
def md4 (data : List U8) : R (Vector U8 16) := mdHash (fun x s => .ok (Md4.process x s)) data
/-- `md5::hash`, src/md/md5.rs:1-9. -/
def md5 (data : List U8) : R (Vector U8 16) := mdHash Md5.process data

end Md

/-! ## RC2 -/
section Rc2
open _root_.Verif.Model.Rc2 (RC2 pi expand2)

/-- First expansion loop, src/rc/rc2.rs:57-59. -/
def expand1 (t : Nat) : Nat → Nat → Vector U8 128 → R (Vector U8 128)
  | 0, _, l => .ok l
  | n + 1, i, l => do
    let a ← vidx l (subW 64 i 1)
    let b ← vidx l (subW 64 i t)
    expand1 t n (i + 1) (← vset l i (pi (a + b)))

/-- `RC2::expand_key`, src/rc/rc2.rs:48-71. `128 - t8` is computed in 16 bits. -/
def expandKey (key : List U8) (numBits : U16) : R (Vector U16 64) := do
  if 128 < key.length then .error .index
  else
    let l : Vector U8 128 := Vector.ofFn fun i => if h : i.val < key.length then key[i.val] else 0#8
    let t := key.length
    let t8 := (numBits.toNat + 7) / 8
    let tm : U8 := 0xff#8 >>> ((0#16 - numBits) &&& 7#16).toNat
    let l ← expand1 t (128 - t) t l
    let k := subW 16 128 t8
    let l ← vset l k (pi ((← vidx l k) &&& tm))
    let l ← expand2 t8 k l
    .ok (Vector.ofFn fun i => leU16 l[i.val * 2] l[i.val * 2 + 1])

/-- `RC2::from_key`, src/rc/rc2.rs:42-46. -/
def fromKey (key : List U8) (numBits : U16) : R RC2 := do .ok ⟨← expandKey key numBits⟩

end Rc2

/-! ## ASN.1 and RSA keys in PEM files -/
section Asn1
open _root_.Verif.Model.Oaep (slice)
open _root_.Verif.Model.Asn1 (Asn1 Error sequenceLoop)
open _root_.Verif.Model.RsaAsn1 (PrivateKeyInfo SubjectPublicKeyInfo AlgorithmIdentifier isZero rsaOid)

/-- The length field, src/pem/asn1.rs:17-27. -/
def lengthField (bytes : List U8) : R (List U8 × Nat) := do
  let b ← idx bytes 1
  if b &&& 0x80#8 ≠ 0#8 then
    let lengthBytes := (b &&& 0x7f#8).toNat
    let off := subW 64 16 lengthBytes
    let length ← copyInto (Vector.replicate 16 0#8) off (← slice bytes 2 (2 + lengthBytes))
    let rest ← slice bytes (2 + lengthBytes) bytes.length
    .ok (rest, beVal length.toList % 2 ^ 64)
  else .ok (← slice bytes 2 bytes.length, b.toNat)

/-- `Asn1::parse_from_bytes`, src/pem/asn1.rs:12-56; the first argument is fuel. -/
def parseFromBytes : Nat → List U8 → R (Except Error (Asn1 × List U8))
  | 0, _ => .error .diverged
  | fuel + 1, bytes => do
    if bytes.length ≤ 1 then return .error .tagHadNoLength
    let tag ← idx bytes 0
    let (rest, length) ← lengthField bytes
    if length > rest.length then return .error (.tooLittleData tag length rest.length)
    if tag = 0x02#8 then return .ok (.integer (← slice rest 0 length), ← slice rest length rest.length)
    else if tag = 0x04#8 then return .ok (.octetString (← slice rest 0 length), ← slice rest length rest.length)
    else if tag = 0x03#8 then
      let data ← slice rest 1 length
      return .ok (.bitString data (← idx rest 0), ← slice rest length rest.length)
    else if tag = 0x05#8 then return .ok (.null, ← slice rest length rest.length)
    else if tag = 0x06#8 then return .ok (.objectIdentifier (← slice rest 0 length), ← slice rest length rest.length)
    else if tag = 0x30#8 then
      let left ← slice rest 0 length
      match ← sequenceLoop (parseFromBytes fuel) (left.length + 1) left [] with
      | .error e => return .error e
      | .ok elements => return .ok (.sequence elements, ← slice rest length rest.length)
    else return .error (.unknownTag tag)

/-- `TryFrom<&[u8]> for Asn1`, src/pem/asn1.rs:59-71. -/
def tryFrom (bytes : List U8) : R (Except Error Asn1) := do
  match ← parseFromBytes (bytes.length + 1) bytes with
  | .error e => return .error e
  | .ok (asn1, left) => if left ≠ [] then return .error .extraBytes else return .ok asn1

/-- `PrivateKeyInfo::from_asn1`, src/rsa/asn1.rs:38-71. -/
def privateKeyInfo (asn : Asn1) : R (Except RsaAsn1.Error PrivateKeyInfo) :=
  match asn with
  | .sequence seq => do
    if seq.length ≠ 3 then return .error .expectedThreeElements
    if ¬ isZero (← idx seq 0) then return .error .versionNotZero
    match AlgorithmIdentifier.fromAsn1 (← idx seq 1) with
    | .error e => return .error e
    | .ok algo =>
      if algo.algorithm ≠ rsaOid then return .error .privateAlgorithmNotRsa
      match ← idx seq 2 with
      | .octetString bytes =>
        match ← tryFrom bytes with
        | .error e => return .error (.privateKeyBytes e)
        | .ok asn =>
          match ← RsaAsn1.PrivateKey.fromAsn1 asn with
          | .error e => return .error (.privateKey e)
          | .ok pr => return .ok ⟨0#32, algo, pr⟩
      | _ => return .error .notAnOctetString
  | _ => .ok (.error (.notASequence asn))

/-- `SubjectPublicKeyInfo::from_asn1`, src/rsa/asn1.rs:75-107. -/
def subjectPublicKeyInfo (asn : Asn1) : R (Except RsaAsn1.Error SubjectPublicKeyInfo) :=
  match asn with
  | .sequence seq => do
    if seq.length ≠ 2 then return .error .expectedTwoElements
    match AlgorithmIdentifier.fromAsn1 (← idx seq 0) with
    | .error e => return .error e
    | .ok algo =>
      if algo.algorithm ≠ rsaOid then return .error .algorithmNotRsa
      match ← idx seq 1 with
      | .bitString bytes unusedBits =>
        if unusedBits ≠ 0#8 then return .error .unusedBits
        match ← tryFrom bytes with
        | .error e => return .error (.publicKeyBytes e)
        | .ok asn =>
          match ← RsaAsn1.PublicKey.fromAsn1 asn with
          | .error e => return .error (.publicKey e)
          | .ok pb => return .ok ⟨algo, pb⟩
      | _ => return .error .notABitString
  | _ => .ok (.error (.notASequence asn))

/-- `TryFrom<PEM> for PrivateKey`, src/rsa/mod.rs:89-100. -/
def privateKeyTryFrom (pem : Pem.PEM) : R (Except RsaAsn1.Error Rsa.PrivateKey) := do
  if pem.label ≠ Pem.privateLabel then return .error .notAPrivateKey
  match ← tryFrom pem.data with
  | .error e => return .error (.asn1 e)
  | .ok asn =>
    match ← privateKeyInfo asn with
    | .error e => return .error e
    | .ok info => return .ok ⟨info.privateKey.modulus, info.privateKey.privateExponent⟩

/-- `TryFrom<PEM> for PublicKey`, src/rsa/mod.rs:106-117. -/
def publicKeyTryFrom (pem : Pem.PEM) : R (Except RsaAsn1.Error Rsa.PublicKey) := do
  if pem.label ≠ Pem.publicLabel then return .error .notAPublicKey
  match ← tryFrom pem.data with
  | .error e => return .error (.asn1 e)
  | .ok asn =>
    match ← subjectPublicKeyInfo asn with
    | .error e => return .error e
    | .ok info => return .ok ⟨info.subjectPublicKey.modulus, info.subjectPublicKey.publicExponent⟩

end Asn1

/-! ## BigUint

(The 16-bit sums of the additions do not overflow.) -/
section Big
open _root_.Verif.Model.Big (BigUint ilog2 update trim addByte add shl shr fromU128 fromBeBytes toBeBytes)

/-- `BigUint::bits_used`, src/big/uint.rs:61-71. -/
def bitsUsed (x : BigUint) : R Nat := do
  if x.bytes.isEmpty then return 0
  let lastIdx := x.bytes.length - 1
  let bits := mulW 32 (lastIdx % 2 ^ 32) 8
  let top ← ilog2 (← idx x.bytes lastIdx)
  return addW 32 bits (top + 1)

/-- `BigUint::is_set`, src/big/uint.rs:79-92. -/
def isSet (x : BigUint) (i : Nat) : R Bool := do
  if i ≥ (← bitsUsed x) then return false
  if x.bytes.isEmpty then return false
  let byteIdx := i / 8
  if byteIdx ≥ x.bytes.length then return false
  let bitIdx := i % 8
  return (((← idx x.bytes byteIdx) >>> bitIdx) &&& 1#8) != 0#8

/-- The loop of `Ord::cmp`, src/big/uint.rs:175-184. -/
def cmpLoop (x y : BigUint) : Nat → R Ordering
  | 0 => .ok .eq
  | i + 1 => do
    let a ← isSet x i
    let b ← isSet y i
    if a && !b then return .gt
    if !a && b then return .lt
    cmpLoop x y i

/-- `Ord::cmp`, src/big/uint.rs:171-189. -/
def cmp (x y : BigUint) : R Ordering := do
  match compare (← bitsUsed x) (← bitsUsed y) with
  | .eq => cmpLoop x y (← bitsUsed x)
  | ord => return ord

/-- The loop of lines 207-212 of src/big/uint.rs: pushing `offset` bytes on top of `len` ends in a "capacity overflow" panic
(or an allocation failure before that) when the vector would exceed `isize::MAX` bytes. -/
def pushAll (len offset : Nat) : R Unit := if len + offset < 2 ^ 63 then .ok () else .error .explicit

/-- `SubAssign::sub_assign`, src/big/uint.rs:197-222. -/
def subAssign (cap : Nat → Nat) (x rhs : BigUint) : R BigUint := do
  let curr ← bitsUsed x
  let offset := subW 64 (cap (x.bytes.length + 1)) rhs.bytes.length
  pushAll rhs.bytes.length offset
  let inv : BigUint := ⟨trim (rhs.bytes.map (~~~ ·) ++ List.replicate offset (~~~0#8))⟩
  let x ← addByte x 1#8
  let x ← add x inv
  let x ← Big.clearLoop x curr ((← bitsUsed x) - curr)
  return ⟨trim x.bytes⟩

/-- `Sub::sub`, src/big/uint.rs:224-232. -/
def sub (cap : Nat → Nat) (x rhs : BigUint) : R BigUint := subAssign cap x rhs

/-- The loop of `RemAssign`, src/big/uint.rs:245-250: `n` iterations. -/
def remLoop (cap : Nat → Nat) (x m : BigUint) : Nat → R BigUint
  | 0 => .ok x
  | n + 1 => do
    let x ← if (← cmp m x) ≠ .gt then subAssign cap x m else .ok x
    let m ← shr m 1
    remLoop cap x m n

/-- `RemAssign::rem_assign`, src/big/uint.rs:234-252. -/
def rem (cap : Nat → Nat) (x rhs : BigUint) : R BigUint := do
  if (← bitsUsed rhs) > (← bitsUsed x) then return x
  let d := subW 32 (← bitsUsed x) (← bitsUsed rhs)
  remLoop cap x (shl rhs d) (d + 1)

end Big

/-! ## RSA -/
section Rsa
open _root_.Verif.Model.Big (BigUint add shl shr fromU128 fromBeBytes toBeBytes)
open _root_.Verif.Model.Rsa (PrivateKey PublicKey RsaEncryption PaddingScheme divU asI128 unwrapResult unwrapOption)
open _root_.Verif.Model.Oaep (xorSlices slice DecodeError)

/-- `lcm`, src/rsa/mod.rs:186-188. -/
def lcm (a b : Nat) : R Nat := divU (mulW 128 a b) (Nat.gcd a b)

/-- The loop of `inverse`, src/rsa/mod.rs:194-198; the first argument is fuel. -/
def inverseLoop : Nat → Nat → Nat → Int → Int → R (Nat × Int)
  | 0, _, _, _, _ => .error .diverged
  | fuel + 1, r, newR, t, newT =>
    if newR ≠ 0 then do
      let q ← divU r newR
      inverseLoop fuel newR (subW 128 r (mulW 128 q newR)) newT (i128W (t - i128W (asI128 q * newT)))
    else .ok (r, t)

/-- `inverse`, src/rsa/mod.rs:190-208. -/
def inverse (a n : Nat) : R (Option Nat) := do
  let (r, t) ← inverseLoop (a + 1) n a 0 1
  if r ≠ 1 then return none
  let t := if t < 0 then i128W (t + asI128 n) else t
  return some (Rsa.asU128 t)

/-- `create_keys`, src/rsa/mod.rs:43-61. -/
def createKeys (p q e : BigUint) : R (PrivateKey × PublicKey) := do
  let p := (← unwrapResult (← Big.asU128 p)).toNat
  let q := (← unwrapResult (← Big.asU128 q)).toNat
  let e := (← unwrapResult (← Big.asU128 e)).toNat
  let n := mulW 128 p q
  let l ← lcm (subW 128 p 1) (subW 128 q 1)
  let d ← unwrapOption (← inverse e l)
  let n ← fromU128 (BitVec.ofNat 128 n)
  let d ← fromU128 (BitVec.ofNat 128 d)
  let e ← fromU128 (BitVec.ofNat 128 e)
  return (⟨n, d⟩, ⟨n, e⟩)

/-- The loop of `mul_mod`, src/rsa/mod.rs:159-167; the first argument is fuel. -/
def mulModLoop (cap : Nat → Nat) (m : BigUint) : Nat → BigUint → BigUint → BigUint → R BigUint
  | 0, _, _, _ => .error .diverged
  | fuel + 1, r, a, b => do
    if (← bitsUsed b) ≠ 0 then
      let r ← if (← isSet b 0) then do rem cap (← add r a) m else .ok r
      let a ← rem cap (shl a 1) m
      let b ← shr b 1
      mulModLoop cap m fuel r a b
    else .ok r

/-- `mul_mod`, src/rsa/mod.rs:154-169. -/
def mulMod (cap : Nat → Nat) (a b m : BigUint) : R BigUint := do
  mulModLoop cap m (8 * b.bytes.length + 1) (← fromU128 0#128) a b

/-- The loop of `pow_mod`, src/rsa/mod.rs:177-182. -/
def powModLoop (cap : Nat → Nat) (p m : BigUint) : Nat → Nat → BigUint → BigUint → R BigUint
  | 0, _, r, _ => .ok r
  | k + 1, i, r, a => do
    let r ← if (← isSet p i) then mulMod cap r a m else .ok r
    let a ← mulMod cap a a m
    powModLoop cap p m k (i + 1) r a

/-- `pow_mod`, src/rsa/mod.rs:171-184. -/
def powMod (cap : Nat → Nat) (a p m : BigUint) : R BigUint := do
  powModLoop cap p m (← bitsUsed p) 0 (← fromU128 1#128) a

/-- `RsaEncryption::encrypt`, src/rsa/mod.rs:135-137. -/
def encrypt (cap : Nat → Nat) (self : RsaEncryption) (m : BigUint) : R BigUint :=
  powMod cap m self.exponent self.modulo

/-- `RsaEncryption::decrypt`, src/rsa/mod.rs:149-151. -/
def decrypt (cap : Nat → Nat) (self : RsaEncryption) (c : BigUint) : R BigUint :=
  powMod cap c self.exponent self.modulo

/-- `RsaEncryption::encrypt_message`, src/rsa/mod.rs:121-133. `bits_used() - 1` is computed in 32 bits. -/
def encryptMessage {ε : Type} (cap : Nat → Nat) (self : RsaEncryption) (plaintext : List U8) (padding : PaddingScheme ε) :
    R (List U8) := do
  let m ← padding.encode [] plaintext (subW 32 (← bitsUsed self.modulo) 1 / 8 + 1)
  let m ← fromBeBytes m
  if (← cmp m self.modulo) ≠ .lt then throw .assertion
  return toBeBytes (← encrypt cap self m)

/-- `RsaEncryption::decrypt_message`, src/rsa/mod.rs:139-147. `m[start..]` panics when `start` is beyond the end. -/
def decryptMessage {ε : Type} (cap : Nat → Nat) (self : RsaEncryption) (ciphertext : List U8) (padding : PaddingScheme ε) :
    R (List U8) := do
  let m := List.replicate ciphertext.length 0#8
  let d ← decrypt cap self (← fromBeBytes ciphertext)
  let dec := toBeBytes d
  let start := subW 64 m.length dec.length
  if m.length < start then throw .index
  let m := m.take start ++ dec
  unwrapResult (← padding.decode [] m m.length)

/-! ## MGF1 and OAEP -/

/-- The loop of `mgf1`, src/rsa/mgf.rs:15-19; the first argument is fuel. The output vector cannot exceed `isize::MAX`
bytes. -/
def mgf1Loop {N : Nat} (hash : List U8 → R (Vector U8 N)) (seed : List U8) (outputSize : Nat) :
    Nat → List U8 → Nat → R (List U8)
  | 0, _, _ => .error .diverged
  | fuel + 1, output, counter =>
    if output.length < outputSize then do
      let digest ← hash (seed ++ natToBE 4 counter)
      pushAll output.length N
      mgf1Loop hash seed outputSize fuel (output ++ digest.toList) (addW 32 counter 1)
    else .ok output

/-- `mgf1`, src/rsa/mgf.rs:3-23. -/
def mgf1 {N : Nat} (hash : List U8 → R (Vector U8 N)) (seed : List U8) (outputSize : Nat) : R (List U8) := do
  Oaep.withCapacity (addW 64 outputSize N)
  let output ← mgf1Loop hash seed outputSize (2 ^ 32 + 1 + outputSize) [] 0
  return output.take outputSize

/-- `OaepPadding::encode`, src/rsa/oaep.rs:18-52. -/
def encode {N : Nat} (hash : List U8 → R (Vector U8 N)) (label message : List U8) (nLen : Nat) : R (List U8) := do
  let labelHash ← hash label
  let sub := message.length + 2 * N + 2
  if nLen < sub then throw .explicit
  let psLen := nLen - sub
  let db := labelHash.toList ++ List.replicate psLen 0#8 ++ [1#8] ++ message
  let seed : Vector U8 N := Vector.replicate N 42#8
  let dbMask ← mgf1 hash seed.toList (nLen - N - 1)
  let maskedDb ← xorSlices db dbMask
  let seedMask ← mgf1 hash maskedDb N
  let maskedSeed ← xorSlices seed.toList seedMask
  return [0#8] ++ maskedSeed ++ maskedDb

/-- `OaepPadding::decode`, src/rsa/oaep.rs:54-89. -/
def decode {N : Nat} (hash : List U8 → R (Vector U8 N)) (label encoded : List U8) (nLen : Nat) :
    R (Except DecodeError (List U8)) := do
  if (← idx encoded 0) ≠ 0#8 then return .error .firstByteNotZero
  let labelHash ← hash label
  let maskedSeed ← slice encoded 1 (N + 1)
  let maskedDb ← slice encoded (N + 1) encoded.length
  let seedMask ← mgf1 hash maskedDb N
  let seed ← xorSlices maskedSeed seedMask
  let dbMask ← mgf1 hash seed (subW 64 (subW 64 nLen N) 1)
  let db ← xorSlices maskedDb dbMask
  if (← slice db 0 N) ≠ labelHash.toList then return .error .wrongLabel
  let rest ← slice db N db.length
  match rest.findIdx? (· ≠ 0#8) with
  | none => return .error .missingSeparator
  | some separatorIdx => do
    if (← idx rest separatorIdx) ≠ 1#8 then return .error .separatorNotOne
    return .ok (← slice rest (separatorIdx + 1) rest.length)

/-- `RsaPadding`, src/rsa/pad.rs:5-20. -/
def rsaPadding : PaddingScheme DecodeError where
  encode := encode sha256
  decode := decode sha256

end Rsa

end Verif.Model.Release
