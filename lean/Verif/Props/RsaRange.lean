import Verif.Props.Scheme
import Verif.Props.RsaExact

/-! # C116: RSA ciphertexts that are not below the modulus

`Spec.Big.big n` is the normalised `BigUint` of `n`, `beVal` the number of a byte string (first byte most significant). -/

namespace Verif.Props
open Verif Verif.Model.Big Verif.Model.Rsa Verif.Spec.Big

/-- C116: ciphertexts of the same length that are congruent modulo `n` are treated alike, with every padding scheme: numbers
that are not below the modulus are reduced, not rejected. -/
theorem C116_reduced {ε : Type} {cap : Nat → Nat} (hc : CapOk cap) (d n : Nat) (hn : 2 ≤ n) (hsn : n.size ≤ 2 ^ 31 - 8)
    (hsd : d.size ≤ 2 ^ 32 - 8) (scheme : PaddingScheme ε) (ct ct' : List U8) (hct : ct.length ≤ 2 ^ 28 - 1)
    (hlen : ct'.length = ct.length) (h : beVal ct' ≡ beVal ct [MOD n]) :
    decryptMessage cap ⟨big d, big n⟩ ct' scheme = decryptMessage cap ⟨big d, big n⟩ ct scheme := by
  rw [C112_decrypt hc d n hn hsn hsd scheme ct' (by omega), C112_decrypt hc d n hn hsn hsd scheme ct hct, hlen,
    show beVal ct' ^ d % n = beVal ct ^ d % n from h.pow d]

/-- The same for numbers. -/
theorem C116_reduced_number {cap : Nat → Nat} (hc : CapOk cap) (d n x j : Nat) (hn : 2 ≤ n) (hsn : n.size ≤ 2 ^ 31 - 8)
    (hsd : d.size ≤ 2 ^ 32 - 8) (hx : (x + j * n).size ≤ 2 ^ 31 - 8) :
    decrypt cap ⟨big d, big n⟩ (big (x + j * n)) = decrypt cap ⟨big d, big n⟩ (big x) := by
  rw [(C50_decrypt hc _ d n hn hsn hx hsd).1,
    (C50_decrypt hc x d n hn hsn (Nat.le_trans (Nat.size_le_size (Nat.le_add_right _ _)) hx) hsd).1, Nat.pow_mod]
  simp [← Nat.pow_mod]

/-- C116: so ciphertexts are not unique: if the length of the modulus in bits is not a multiple of 8, every ciphertext below
the modulus, of the length of the modulus, has another one of the same length that decrypts to the same. -/
theorem C116_second_ciphertext {ε : Type} {cap : Nat → Nat} (hc : CapOk cap) (d n : Nat) (hn : 2 ≤ n)
    (hsn : n.size ≤ 2 ^ 31 - 8) (hsd : d.size ≤ 2 ^ 32 - 8) (h8 : n.size % 8 ≠ 0) (ct : List U8) (hlt : beVal ct < n)
    (hct : ct.length = (n.size - 1) / 8 + 1) :
    ∃ ct', ct'.length = ct.length ∧ ct' ≠ ct ∧ ∀ scheme : PaddingScheme ε,
      decryptMessage cap ⟨big d, big n⟩ ct' scheme = decryptMessage cap ⟨big d, big n⟩ ct scheme := by
  have hsz : n < 2 ^ n.size := Nat.lt_size_self n
  have hle : n.size + 1 ≤ 8 * ct.length := by omega
  have hfit : beVal ct + n < 256 ^ ct.length := by
    rw [show (256 : Nat) = 2 ^ 8 by decide, ← Nat.pow_mul]
    calc beVal ct + n < 2 ^ n.size + 2 ^ n.size := by omega
      _ = 2 ^ (n.size + 1) := by rw [Nat.pow_succ]; omega
      _ ≤ _ := Nat.pow_le_pow_right (by decide) hle
  have hv : beVal (natToBE ct.length (beVal ct + n)) = beVal ct + n := by
    rw [beVal_natToBE, Nat.mod_eq_of_lt hfit]
  refine ⟨natToBE ct.length (beVal ct + n), length_natToBE _ _, fun h => ?_, fun scheme => ?_⟩
  · rw [h] at hv
    omega
  · refine C116_reduced hc d n hn hsn hsd scheme ct _ (by omega) (length_natToBE _ _) ?_
    rw [hv]
    simp [Nat.ModEq]

/-- With a key pair, decrypting and encrypting are inverse on all numbers, not only those below the modulus. -/
theorem pow_eq_iff (p q e d : Nat) (key : KeyPair p q e d) (x v : Nat) :
    x ^ d % (p * q) = v ↔ v < p * q ∧ x ≡ v ^ e [MOD p * q] := by
  have hpos : 0 < p * q := Nat.mul_pos key.p_prime.pos key.q_prime.pos
  constructor
  · rintro rfl
    refine ⟨Nat.mod_lt _ hpos, ?_⟩
    have h := Model.Rsa.rsa_correct p q e d (x % (p * q)) key.p_prime key.q_prime key.distinct key.inverse
      (Nat.mod_lt _ hpos)
    unfold Nat.ModEq
    rw [← Nat.pow_mod, ← Nat.pow_mul, Nat.mul_comm d e, ← h, ← Nat.pow_mod]
  · rintro ⟨hv, h⟩
    have h' := h.pow d
    rw [← Nat.pow_mul] at h'
    exact Eq.trans h' (Model.Rsa.rsa_correct p q e d v key.p_prime key.q_prime key.distinct key.inverse hv)

/-- C116: which ciphertexts decrypt to a message, in terms of the public key: exactly those congruent to the RSA encryption of
one of its OAEP encodings (with any seed) of the ciphertext's length. -/
theorem C116_accepted_iff {cap : Nat → Nat} (hc : CapOk cap) (p q e d : Nat) (key : KeyPair p q e d) (ct m : List U8)
    (hct : ct.length ≤ 2 ^ 28 - 1) :
    decryptMessage cap ⟨big d, big (p * q)⟩ ct Model.Oaep.rsaPadding = .ok m ↔
      m.length + 66 ≤ ct.length ∧ ∃ seed, seed.length = 32 ∧
        beVal (Spec.Oaep.encode sha256Digest seed [] m ct.length) < p * q ∧
        beVal ct ≡ beVal (Spec.Oaep.encode sha256Digest seed [] m ct.length) ^ e [MOD p * q] := by
  have hn : 2 ≤ p * q := Nat.le_trans key.p_prime.two_le (Nat.le_mul_of_pos_right p key.q_prime.pos)
  rw [C73_decrypt_iff hc d (p * q) hn key.modulus_size key.d_size ct m hct]
  simp only [pow_eq_iff p q e d key]

/-- Not vacuous: `n = 3233` (12 bits, two bytes): the ciphertexts 2790 and 2790 + 3233 of 65. -/
example : decrypt exactCap ⟨big 2753, big 3233⟩ (big 2790) = .ok (big 65) ∧
    decrypt exactCap ⟨big 2753, big 3233⟩ (big (2790 + 1 * 3233)) = .ok (big 65) := by decide +kernel
example : (3233 : Nat).size % 8 ≠ 0 ∧ ([0x0a#8, 0xe6#8] : List U8).length = ((3233 : Nat).size - 1) / 8 + 1 ∧
    beVal [0x0a#8, 0xe6#8] < 3233 := by decide +kernel

/-- C116 applied. -/
example : decrypt exactCap ⟨big 2753, big 3233⟩ (big (2790 + 5 * 3233)) = decrypt exactCap ⟨big 2753, big 3233⟩ (big 2790) ∧
    (∃ ct', ct'.length = 2 ∧ ct' ≠ [0x0a#8, 0xe6#8] ∧ ∀ scheme : PaddingScheme Unit,
      decryptMessage exactCap ⟨big 2753, big 3233⟩ ct' scheme = decryptMessage exactCap ⟨big 2753, big 3233⟩ [0x0a#8, 0xe6#8] scheme) ∧
    ∀ scheme : PaddingScheme Unit, decryptMessage exactCap ⟨big 2753, big 3233⟩ [0x17#8, 0x87#8] scheme =
      decryptMessage exactCap ⟨big 2753, big 3233⟩ [0x0a#8, 0xe6#8] scheme := by
  have hn : (3233 : Nat).size ≤ 12 := Nat.size_le.2 (by norm_num)
  have hd : (2753 : Nat).size ≤ 12 := Nat.size_le.2 (by norm_num)
  have hx : (2790 + 5 * 3233 : Nat).size ≤ 16 := Nat.size_le.2 (by norm_num)
  exact ⟨C116_reduced_number exactCap_ok 2753 3233 2790 5 (by norm_num) (by omega) (by omega) (by omega),
    C116_second_ciphertext exactCap_ok 2753 3233 (by norm_num) (by omega) (by omega) (by decide +kernel) [0x0a#8, 0xe6#8]
      (by decide) (by decide +kernel),
    fun scheme => C116_reduced exactCap_ok 2753 3233 (by norm_num) (by omega) (by omega) scheme [0x0a#8, 0xe6#8] [0x17#8, 0x87#8]
      (by decide) rfl (by decide)⟩

end Verif.Props
