import Verif.Proof.ChosenPrefix
import Verif.Props.PaddingOracle

/-! # C144: a secret behind a text of somebody else's choice is read byte by byte

`attack` (`Spec.ChosenPrefix`) is one fixed procedure. It sees only the ciphertexts it asks for. -/

namespace Verif.Props
open Verif Model Spec
open _root_.Verif.Spec.ChosenPrefix (attack Strategy)

/-- C144 for every mode: if each encryption starts the mode in the same state, whoever may choose the text in front of a secret
finds the secret, whatever the cipher, the key and the secret, with at most `257` questions for each byte and `N + 1` more.
`Lawful` only says that decryption is possible. -/
theorem C144_same_start {N : Nat} (hN : 1 ≤ N) (hN' : N ≤ 255) {σ τ : Type} (c : BlockCipher N) (m : Mode N σ) (m' : Mode N τ)
    (Rel : σ → τ → Prop) (hlaw : Lawful (m.encryptBlock c) (m'.decryptBlock c) Rel) (s : σ) (t : τ) (hst : Rel s t)
    (secret : List U8) :
    (attack.run fun text => (blockEncrypt m c s (text ++ secret)).emitted).1 = secret ∧
    (attack.run fun text => (blockEncrypt m c s (text ++ secret)).emitted).2 ≤ N + 1 + 257 * secret.length :=
  ChosenPrefix.run_attack hN hN' hlaw hst secret

/-- C144 for `EcbMode`, the mode of the crate. -/
theorem C144_ecb {N : Nat} (hN : 1 ≤ N) (hN' : N ≤ 255) (c : BlockCipher N) (hc : Invertible c) (secret : List U8) :
    (attack.run fun text => (blockEncrypt (ecb N) c () (text ++ secret)).emitted).1 = secret ∧
    (attack.run fun text => (blockEncrypt (ecb N) c () (text ++ secret)).emitted).2 ≤ N + 1 + 257 * secret.length :=
  C144_same_start hN hN' c (ecb N) (ecb N) _ (ecb_lawful hc) () () trivial secret

/-- C144 for cipher block chaining with an initialisation vector that is used again: the same procedure. -/
theorem C144_cbc_iv_reuse {N : Nat} (hN : 1 ≤ N) (hN' : N ≤ 255) (c : BlockCipher N) (hc : Invertible c) (iv : Vector U8 N)
    (secret : List U8) :
    (attack.run fun text => (blockEncrypt (cbc N) c iv (text ++ secret)).emitted).1 = secret ∧
    (attack.run fun text => (blockEncrypt (cbc N) c iv (text ++ secret)).emitted).2 ≤ N + 1 + 257 * secret.length :=
  C144_same_start hN hN' c (cbc N) (cbc N) Eq (cbc_lawful hc) iv iv rfl secret

/-- C144 for the three block ciphers of the crate with all their keys. -/
theorem C144_ciphers (secret : List U8) :
    (∀ c, BuiltAes c →
      (attack.run fun text => (blockEncrypt (ecb 16) (Aes.cipher c) () (text ++ secret)).emitted).1 = secret) ∧
    (∀ k, (attack.run fun text => (blockEncrypt (ecb 8) (Rc2.cipher k) () (text ++ secret)).emitted).1 = secret) ∧
    (∀ (key : List U8) (rounds : U8), 1 ≤ key.length → key.length ≤ 255 → ∃ k, Rc5.new key rounds = .ok k ∧
      (attack.run fun text => (blockEncrypt (ecb 8) (Rc5.cipher k) () (text ++ secret)).emitted).1 = secret) :=
  ⟨fun c hc => (C144_ecb (by decide) (by decide) _ (C121_ciphers.1 c hc) secret).1,
    fun k => (C144_ecb (by decide) (by decide) _ (C121_ciphers.2.1 k) secret).1,
    fun key rounds h1 h2 => by
      obtain ⟨k, hk, hi⟩ := C121_ciphers.2.2 key rounds h1 h2
      exact ⟨k, hk, (C144_ecb (by decide) (by decide) _ hi secret).1⟩⟩

/-- The attack, carried out on a secret of five bytes: 1 + 3 questions for the lengths, then for each byte one question and its
value plus one more. -/
example : attack.run (fun text => (blockEncrypt (ecb 4) (revCipher 4) () (text ++ [7, 1, 12, 3, 9])).emitted) =
    ([7, 1, 12, 3, 9], 1 + 3 + (9 + 3 + 14 + 5 + 11)) := by decide +kernel
example : attack.run (fun text => (blockEncrypt (cbc 4) (revCipher 4) #v[9, 8, 7, 6] (text ++ [7, 1, 2])).emitted) =
    ([7, 1, 2], 1 + 1 + (9 + 3 + 4)) := by decide +kernel
/-- C144 applied: the hypotheses are met by a cipher, and by AES with any key. -/
example : (attack.run fun text => (blockEncrypt (ecb 16) (revCipher 16) () (text ++ [1, 2, 3])).emitted).1 = [1, 2, 3] :=
  (C144_ecb (by decide) (by decide) _ (revCipher_invertible 16) _).1
example (key : Vector U8 16) (secret : List U8) : ∃ c, Aes.with128 key = .ok c ∧
    (attack.run fun text => (blockEncrypt (ecb 16) (Aes.cipher c) () (text ++ secret)).emitted).1 = secret := by
  obtain ⟨c, _, _, h, _⟩ := C21_aes128_is_fips197 key
  exact ⟨c, h, (C144_ciphers secret).1 c (.k128 key c h)⟩

end Verif.Props
