import Verif.Model.Ending

/-! # OAEP decoding with a count of the work done

`OaepPadding::decode` and `decrypt_message` written down a second time, with a count of the calls of the hash function and of
the bytes that the search for the separator looks at. Unlike in `Verif.Model.Work` the counts are kept when there is a panic.
`Verif.Props.OaepTrace` shows that forgetting the counts gives back the functions of `Verif.Model.Oaep`. The comparison of
the hash of the label (src/rsa/oaep.rs:74) is not counted. -/

namespace Verif.Model.OaepTrace
open Verif Verif.Model.Big Verif.Model.Rsa Verif.Model.Oaep

/-- What is counted: calls of the hash function (src/rsa/oaep.rs:64 and src/rsa/mgf.rs:17) and bytes looked at by the closure
of `position` (src/rsa/oaep.rs:80). -/
structure Count where
  hashes : Nat
  scanned : Nat
  deriving DecidableEq, Repr

/-- Work done in sequence adds up. No counterpart in the code: it counts src/rsa/oaep.rs:54-89. -/
def Count.plus (c d : Count) : Count := ⟨c.hashes + d.hashes, c.scanned + d.scanned⟩

/-- A computation that may panic and counts. No counterpart in the code: it counts src/rsa/oaep.rs:54-89. -/
def T (α : Type) : Type := R α × Count

/-- Sequencing. No counterpart in the code: it counts src/rsa/oaep.rs:54-89. -/
def T.bind {α β : Type} (x : T α) (f : α → T β) : T β :=
  match x with
  | (.error e, c) => (.error e, c)
  | (.ok a, c) => ((f a).1, c.plus (f a).2)

/-- The monad of counting; no counterpart in the code: it counts src/rsa/oaep.rs:54-89. -/
instance : Monad T where
  pure a := (.ok a, ⟨0, 0⟩)
  bind := T.bind

/-- A computation whose work is not counted. No counterpart in the code: it counts src/rsa/oaep.rs:54-89. -/
def free {α : Type} (x : R α) : T α := (x, ⟨0, 0⟩)

/-- A call of the hash function. src/rsa/oaep.rs:64 and src/rsa/mgf.rs:17. -/
def hashT {N : Nat} (hash : List U8 → R (Vector U8 N)) (message : List U8) : T (Vector U8 N) := (hash message, ⟨1, 0⟩)

/-- A byte is looked at. src/rsa/oaep.rs:80. -/
def look : T Unit := (.ok (), ⟨0, 1⟩)

/-- The loop of `mgf1`, src/rsa/mgf.rs:15-19, counting. -/
def mgf1LoopT {N : Nat} (hash : List U8 → R (Vector U8 N)) (seed : List U8) (outputSize : Nat) :
    Nat → List U8 → Nat → T (List U8)
  | 0, _, _ => free (.error .diverged)
  | fuel + 1, output, counter =>
    if output.length < outputSize then do
      let digest ← hashT hash (seed ++ natToBE 4 counter)
      let counter ← free (addU32 counter 1)
      mgf1LoopT hash seed outputSize fuel (output ++ digest.toList) counter
    else pure output

/-- `mgf1`, src/rsa/mgf.rs:3-23, counting. -/
def mgf1T {N : Nat} (hash : List U8 → R (Vector U8 N)) (seed : List U8) (outputSize : Nat) : T (List U8) := do
  let c ← free (addUsize outputSize N)
  free (withCapacity c)
  let output ← mgf1LoopT hash seed outputSize (2 ^ 32 + 1) [] 0
  return output.take outputSize

/-- `iter().position(|&b| b != 0)` from the index `i` on, src/rsa/oaep.rs:78-80, counting. -/
def positionT (i : Nat) : List U8 → T (Option Nat)
  | [] => pure none
  | b :: bs => do
    look
    if b ≠ 0#8 then pure (some i) else positionT (i + 1) bs

/-- The part of `decode` after the comparison of the label, src/rsa/oaep.rs:77-88, counting. -/
def afterLabelT (rest : List U8) : T (Except DecodeError (List U8)) := do
  match ← positionT 0 rest with
  | none => return .error .missingSeparator
  | some separatorIdx => do
    let b ← free (idx rest separatorIdx)
    if b ≠ 1#8 then return .error .separatorNotOne
    else do
      let m ← free (slice rest (separatorIdx + 1) rest.length)
      return .ok m

/-- `OaepPadding::decode`, src/rsa/oaep.rs:54-89, counting. -/
def decodeT {N : Nat} (hash : List U8 → R (Vector U8 N)) (label encoded : List U8) (nLen : Nat) :
    T (Except DecodeError (List U8)) := do
  let first ← free (idx encoded 0)
  if first ≠ 0#8 then return .error .firstByteNotZero
  else do
    let labelHash ← hashT hash label
    let maskedSeed ← free (slice encoded 1 (N + 1))
    let maskedDb ← free (slice encoded (N + 1) encoded.length)
    let seedMask ← mgf1T hash maskedDb N
    let seed ← free (xorSlices maskedSeed seedMask)
    let l ← free (subU nLen N)
    let l ← free (subU l 1)
    let dbMask ← mgf1T hash seed l
    let db ← free (xorSlices maskedDb dbMask)
    let start ← free (slice db 0 N)
    if start ≠ labelHash.toList then return .error .wrongLabel
    else do
      let rest ← free (slice db N db.length)
      afterLabelT rest

/-- `RsaEncryption::decrypt_message`, src/rsa/mod.rs:139-147, for `RsaPadding`, counting. -/
def decryptT (cap : Nat → Nat) (self : RsaEncryption) (ciphertext : List U8) : T (List U8) := do
  let m := List.replicate ciphertext.length 0#8
  let c ← free (fromBeBytes ciphertext)
  let d ← free (decrypt cap self c)
  let dec := toBeBytes d
  let start ← free (subU m.length dec.length)
  let m := m.take start ++ dec
  let r ← decodeT Sha.sha256 [] m m.length
  free (unwrapResult r)

end Verif.Model.OaepTrace
