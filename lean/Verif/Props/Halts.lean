import Verif.Proof.Halts
import Verif.Props.Sha
import Verif.Proof.Aes

/-! # C84: every call ends

A loop of the code whose number of iterations is not known beforehand (`while`, `while let`, `loop`, recursion) is modelled
with fuel, and `.error .diverged` is what the model returns when the fuel runs out. The theorems say that this does not
happen, for arbitrary arguments. All other loops of the code are `for` loops over finite ranges. -/

namespace Verif.Props
open Verif Verif.Model.Big Verif.Model.Rsa

/-- C84: key generation, whatever numbers are given (0, 1, composite …). -/
theorem C84_create_keys (p q e : BigUint) : createKeys p q e ≠ .error .diverged := Model.Rsa.halts_createKeys p q e

/-- C84: encryption and decryption, whatever the exponent, the modulus (even 0) and the message, normalised or not. -/
theorem C84_rsa (cap : Nat → Nat) (key : RsaEncryption) (m : BigUint) :
    encrypt cap key m ≠ .error .diverged ∧ decrypt cap key m ≠ .error .diverged :=
  ⟨Model.Rsa.halts_powMod _ _ _ _, Model.Rsa.halts_powMod _ _ _ _⟩

/-- C84: the mask generation function, for every hash function that returns (whatever its digest size, even 0). -/
theorem C84_mgf1 {N : Nat} (hash : List U8 → R (Vector U8 N)) (hh : ∀ m, hash m ≠ .error .diverged) (seed : List U8)
    (len : Nat) : Model.Oaep.mgf1 hash seed len ≠ .error .diverged := Model.Oaep.halts_mgf1 hash hh seed len

/-- C84: OAEP. -/
theorem C84_oaep {N : Nat} (hash : List U8 → R (Vector U8 N)) (hh : ∀ m, hash m ≠ .error .diverged)
    (label message : List U8) (k : Nat) : Model.Oaep.encode hash label message k ≠ .error .diverged ∧
      Model.Oaep.decode hash label message k ≠ .error .diverged :=
  ⟨Model.Oaep.halts_encode hash hh label message k, Model.Oaep.halts_decode hash hh label message k⟩

theorem halts_sha256 (m : List U8) : Model.Sha.sha256 m ≠ .error .diverged := by
  by_cases h : m.length < 2 ^ 61
  · obtain ⟨d, hd, _⟩ := C26_sha256 m h
    rw [hd]; intro h; cases h
  · rw [(C26_too_long m (by omega)).1]; intro h; cases h

/-- C84: encryption and decryption of messages. -/
theorem C84_messages (cap : Nat → Nat) (key : RsaEncryption) (m : List U8) :
    encryptMessage cap key m Model.Oaep.rsaPadding ≠ .error .diverged ∧
    decryptMessage cap key m Model.Oaep.rsaPadding ≠ .error .diverged :=
  ⟨Model.Rsa.halts_encryptMessage cap key m _ fun _ _ _ => (C84_oaep _ halts_sha256 _ _ _).1,
    Model.Rsa.halts_decryptMessage cap key m _ fun _ _ _ => (C84_oaep _ halts_sha256 _ _ _).2⟩

/-- C84: reading ASN.1 and key files, whatever the bytes. -/
theorem C84_files (bytes : List U8) (pem : Model.Pem.PEM) : Model.Asn1.tryFrom bytes ≠ .error .diverged ∧
    Model.Pem.privateKeyTryFrom pem ≠ .error .diverged ∧ Model.Pem.publicKeyTryFrom pem ≠ .error .diverged :=
  ⟨Model.halts_tryFrom bytes, Model.halts_privateKeyTryFrom pem, Model.halts_publicKeyTryFrom pem⟩

/-- C84: the computation of the AES tables. -/
theorem C84_sbox : Model.Aes.calculateSbox ≠ .error .diverged := by
  rw [Model.Aes.calculateSbox_ok]; intro h; cases h

/-- The value that the theorems exclude is not excluded by the model's types: with less fuel these loops return it. -/
example : Model.Oaep.mgf1 Model.Sha.sha256 [1#8] 100 ≠ .error .diverged ∧
    Model.Oaep.encode Model.Sha.sha256 [] [1#8] 100 ≠ .error .diverged :=
  ⟨C84_mgf1 _ halts_sha256 _ _, (C84_oaep _ halts_sha256 _ _ _).1⟩
example : Model.Rsa.mulModLoop id ⟨[7#8]⟩ 2 ⟨[]⟩ ⟨[3#8]⟩ ⟨[2#8]⟩ = .error .diverged ∧
    Model.Rsa.inverseLoop 2 10 7 0 1 = .error .diverged := by decide +kernel

end Verif.Props
