import Verif.Basic
import Verif.Model.Pad

/-! # Model of `src/lib.rs` (block cipher modes, block encryption, stream cipher) -/

namespace Verif.Model
open Verif

/-- `trait BlockCipher<N>` (with the cipher's own data already applied), src/lib.rs:35-39.
Implementations are arbitrary code, so they may panic. -/
structure BlockCipher (N : Nat) where
  encrypt : Vector U8 N → R (Vector U8 N)
  decrypt : Vector U8 N → R (Vector U8 N)

/-- `trait BlockCipherMode<N>`, src/lib.rs:41-45. `σ` is the type of the mode's own state;
`&mut self` becomes returning the new state. -/
structure Mode (N : Nat) (σ : Type) where
  encryptBlock : BlockCipher N → σ → Vector U8 N → R (Vector U8 N × σ)
  decryptBlock : BlockCipher N → σ → Vector U8 N → R (Vector U8 N × σ)

/-- `EcbMode<N>`, src/lib.rs:47-57. It has no state. -/
def ecb (N : Nat) : Mode N Unit where
  encryptBlock c _ b := (c.encrypt b).map (·, ())
  decryptBlock c _ b := (c.decrypt b).map (·, ())

/-- What a call with an `output: impl FnMut(u8)` callback does: the bytes handed to the callback,
in order, and how the call ended. For src/lib.rs:62-123. -/
structure Run where
  emitted : List U8
  result : R Unit
  deriving DecidableEq, Repr

/-- The `for block in blocks` loop of `BlockEncryption::encrypt`, src/lib.rs:76-82. -/
def encLoop {N : Nat} {σ : Type} (m : Mode N σ) (c : BlockCipher N) :
    σ → List (Vector U8 N) → List U8 × R σ
  | s, [] => ([], .ok s)
  | s, b :: bs =>
    match m.encryptBlock c s b with
    | .error e => ([], .error e)
    | .ok (o, s') =>
      let (out, r) := encLoop m c s' bs
      (o.toList ++ out, r)

/-- `BlockEncryption::encrypt`, src/lib.rs:62-88. `chunks_exact(0)` panics. -/
def blockEncrypt {N : Nat} {σ : Type} (m : Mode N σ) (c : BlockCipher N) (s : σ)
    (plaintext : List U8) : Run :=
  if N = 0 then ⟨[], .error .explicit⟩
  else
    match Pad.pkcsPad N (chunksRem N plaintext) with
    | .error e => ⟨[], .error e⟩
    | .ok lastBlock =>
      match encLoop m c s (chunksExact N plaintext) with
      | (out, .error e) => ⟨out, .error e⟩
      | (out, .ok s') =>
        match m.encryptBlock c s' lastBlock with
        | .error e => ⟨out, .error e⟩
        | .ok (o, _) => ⟨out ++ o.toList, .ok ()⟩

/-- The `for block in blocks` loop of `BlockEncryption::decrypt`, src/lib.rs:105-115; `pending` is
`next_output`. -/
def decLoop {N : Nat} {σ : Type} (m : Mode N σ) (c : BlockCipher N) :
    σ → Option (Vector U8 N) → List (Vector U8 N) → List U8 × R (Option (Vector U8 N))
  | _, pending, [] => ([], .ok pending)
  | s, pending, b :: bs =>
    match m.decryptBlock c s b with
    | .error e => ([], .error e)
    | .ok (o, s') =>
      let (out, r) := decLoop m c s' (some o) bs
      match pending with
      | some p => (p.toList ++ out, r)
      | none => (out, r)

/-- `BlockEncryption::decrypt`, src/lib.rs:90-123. -/
def blockDecrypt {N : Nat} {σ : Type} (m : Mode N σ) (c : BlockCipher N) (s : σ)
    (ciphertext : List U8) : Run :=
  if N = 0 then ⟨[], .error .explicit⟩
  else if chunksRem N ciphertext ≠ [] then ⟨[], .error .explicit⟩
  else
    match decLoop m c s none (chunksExact N ciphertext) with
    | (out, .error e) => ⟨out, .error e⟩
    | (out, .ok none) => ⟨out, .error .unwrap⟩
    | (out, .ok (some last)) =>
      match Pad.pkcsUnpad N last with
      | .error e => ⟨out, .error e⟩
      | .ok len => ⟨out ++ last.toList.take len, .ok ()⟩

/-- An `Iterator<Item = u8>` as a state machine: `next` returns the item, if any, and the new state.
Simplification: the iterator itself does not panic (true of `KeyStream`, the only one in the crate). For
src/lib.rs:126-128. -/
abbrev KeyIter (σ : Type) := σ → Option U8 × σ

/-- Result of driving the lazy iterator returned by `StreamCipher::encrypt`: the items it yielded, the
key iterator afterwards, and whether the last step panicked. For src/lib.rs:137-139. -/
structure StreamRun (σ : Type) where
  yielded : List U8
  keys : σ
  result : R Unit
  deriving DecidableEq, Repr

/-- `StreamCipher::encrypt` driven over `data`, src/lib.rs:137-139: for each data byte, the key
iterator is advanced and `unwrap`ped. The stream cipher's only state is the key iterator. -/
def streamEncrypt {σ : Type} (next : KeyIter σ) : σ → List U8 → StreamRun σ
  | s, [] => ⟨[], s, .ok ()⟩
  | s, d :: ds =>
    match next s with
    | (none, s') => ⟨[], s', .error .unwrap⟩
    | (some k, s') =>
      let r := streamEncrypt next s' ds
      ⟨(k ^^^ d) :: r.yielded, r.keys, r.result⟩

end Verif.Model
