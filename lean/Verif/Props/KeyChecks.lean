import Verif.Props.Keys
import Verif.Props.RsaWorks

/-! # C165: loading a key checks no relation between its numbers -/

namespace Verif.Props
open Verif Verif.Model.Big Verif.Model.Rsa Verif.Model.Pem Verif.Spec.Asn1 Verif.Spec.Big
  Verif.Spec.Keys

/-- C165: the loaded private key depends on the modulus and the private exponent of the file only: the public exponent, the
primes and the three numbers for the Chinese remainder theorem may be anything. -/
theorem C165_two_numbers (k k' : RsaKey) (hn : k.n = k'.n) (hd : k.d = k'.d) (h : (der (privateKeyInfo k)).length < 2 ^ 64)
    (h' : (der (privateKeyInfo k')).length < 2 ^ 64) :
    privateKeyTryFrom ⟨"PRIVATE KEY".toList, der (privateKeyInfo k)⟩ =
      privateKeyTryFrom ⟨"PRIVATE KEY".toList, der (privateKeyInfo k')⟩ := by
  rw [C65_private_key k h, C65_private_key k' h', hn, hd]

/-- C165: files with any numbers are accepted, and the two keys that come out undo each other on all numbers below the modulus
exactly if the modulus is free of squares and the exponents fit its prime factors, whatever else is in the files, or both
exponents are 1. -/
theorem C165_accepted {cap : Nat → Nat} (hc : CapOk cap) (k : RsaKey) (e : Nat) (hn : 2 ≤ k.n) (hsn : k.n.size ≤ 2 ^ 31 - 8)
    (hse : e.size ≤ 2 ^ 32 - 8) (hsd : k.d.size ≤ 2 ^ 32 - 8) (h1 : (der (privateKeyInfo k)).length < 2 ^ 64)
    (h2 : (der (subjectPublicKeyInfo k.n e)).length < 2 ^ 64) :
    ∃ sk pk, privateKeyTryFrom ⟨"PRIVATE KEY".toList, der (privateKeyInfo k)⟩ = .ok (.ok sk) ∧
      publicKeyTryFrom ⟨"PUBLIC KEY".toList, der (subjectPublicKeyInfo k.n e)⟩ = .ok (.ok pk) ∧
      ((∀ m, m < k.n → (do decrypt cap (.ofPrivate sk) (← encrypt cap (.ofPublic pk) (big m))) = .ok (big m)) ↔
        (e = 1 ∧ k.d = 1) ∨ (1 ≤ e * k.d ∧ Squarefree k.n ∧ ∀ r, r.Prime → r ∣ k.n → e * k.d ≡ 1 [MOD r - 1])) :=
  ⟨_, _, C65_private_key k h1, C66_public_key k.n e h2, C132_iff hc k.n e k.d hn hsn hse hsd⟩

/-- Wrong primes and a wrong public exponent are accepted and change nothing. -/
example : privateKeyTryFrom ⟨"PRIVATE KEY".toList, der (privateKeyInfo ⟨3233, 4, 2753, 0, 7, 1, 1, 1⟩)⟩ =
    privateKeyTryFrom ⟨"PRIVATE KEY".toList, der (privateKeyInfo smallKey)⟩ :=
  C165_two_numbers _ _ rfl rfl (by decide +kernel) (by decide +kernel)

/-- A wrong private exponent (2754 instead of 2753) is accepted too, and then some number is not decrypted correctly. -/
example {cap : Nat → Nat} (hc : CapOk cap) :
    ∃ sk pk, privateKeyTryFrom ⟨"PRIVATE KEY".toList, der (privateKeyInfo { smallKey with d := 2754 })⟩ = .ok (.ok sk) ∧
      publicKeyTryFrom ⟨"PUBLIC KEY".toList, der (subjectPublicKeyInfo 3233 17)⟩ = .ok (.ok pk) ∧
      ∃ m, m < 3233 ∧ (do decrypt cap (.ofPrivate sk) (← encrypt cap (.ofPublic pk) (big m))) ≠ .ok (big m) := by
  obtain ⟨sk, pk, h1, h2, h3⟩ := C165_accepted hc { smallKey with d := 2754 } 17 (by decide) (by decide +kernel)
    (by decide +kernel) (by decide +kernel) (by decide +kernel) (by decide +kernel)
  refine ⟨sk, pk, h1, h2, ?_⟩
  by_contra hno
  push Not at hno
  rcases h3.1 hno with h | ⟨-, -, h⟩
  · exact absurd h.1 (by decide)
  · exact absurd (h 61 (by norm_num) ⟨53, rfl⟩) (by decide)

end Verif.Props
