import Verif.Basic
import Verif.Model.Lib

/-! # Specification vocabulary for padding, block modes and stream ciphers

Nothing here refers to how the crate loops over blocks. -/

namespace Verif.Spec
open Verif

/-- PKCS#7 padding of the last, incomplete block (RFC 5652 §6.3): `k` copies of the byte `k`, where `k`
is the number of missing bytes. -/
def pkcs7 (N : Nat) (tail : List U8) : List U8 :=
  tail ++ List.replicate (N - tail.length) (BitVec.ofNat 8 (N - tail.length))

/-- A byte string is validly PKCS#7 padded with `k` bytes: it ends in `k ≥ 1` copies of `k`. -/
def ValidPkcs7 (block : List U8) (k : Nat) : Prop :=
  1 ≤ k ∧ k ≤ 255 ∧ ∃ front, block = front ++ List.replicate k (BitVec.ofNat 8 k)

/-- `Steps step s bs os s'`: feeding the blocks `bs` one after the other, in order, to a stateful
transformer that starts in state `s` succeeds, returns the blocks `os` and ends in state `s'`. -/
inductive Steps {σ β : Type} (step : σ → β → R (β × σ)) : σ → List β → List β → σ → Prop
  | nil (s) : Steps step s [] [] s
  | cons {s b o s1 bs os s2} : step s b = .ok (o, s1) → Steps step s1 bs os s2 →
      Steps step s (b :: bs) (o :: os) s2

/-- A mode whose decryption follows its encryption: whenever the two states correspond (`Rel`),
encrypting any block succeeds, decrypting the result gives the block back, and the states correspond
again. -/
structure Lawful {N : Nat} {σ τ : Type} (enc : σ → Vector U8 N → R (Vector U8 N × σ))
    (dec : τ → Vector U8 N → R (Vector U8 N × τ)) (Rel : σ → τ → Prop) : Prop where
  step : ∀ s t b, Rel s t → ∃ o s' t', enc s b = .ok (o, s') ∧ dec t o = .ok (b, t') ∧ Rel s' t'

/-- An invertible block cipher: encryption does not panic and decryption undoes it. -/
def Invertible {N : Nat} (c : Model.BlockCipher N) : Prop :=
  ∀ b, ∃ o, c.encrypt b = .ok o ∧ c.decrypt o = .ok b

/-- Byte-wise xor of two blocks. -/
def xorBlock {N : Nat} (a b : Vector U8 N) : Vector U8 N := Vector.ofFn fun i => a[i] ^^^ b[i]

/-- Cipher block chaining (NIST SP 800-38A §6.2), as a mode a user of the crate would write. -/
def cbc (N : Nat) : Model.Mode N (Vector U8 N) where
  encryptBlock c prev b := (c.encrypt (xorBlock b prev)).map fun o => (o, o)
  decryptBlock c prev b := (c.decrypt b).map fun o => (xorBlock o prev, b)

/-- The key bytes a key iterator produces from a state: its first `n` items, if it has that many,
and the state after them. -/
inductive Keys {σ : Type} (next : Model.KeyIter σ) : σ → List U8 → σ → Prop
  | nil (s) : Keys next s [] s
  | cons {s k s1 ks s2} : next s = (some k, s1) → Keys next s1 ks s2 → Keys next s (k :: ks) s2

end Verif.Spec
