import Verif.Props.RsaWorks
import Mathlib.NumberTheory.LegendreSymbol.JacobiSymbol
import Mathlib.Tactic.NormNum.LegendreSymbol

/-! # C133: what an RSA ciphertext tells about its message without the private key -/

namespace Verif.Props
open Verif Verif.Model.Big Verif.Model.Rsa Verif.Spec.Big

/-- C133: the ciphertext has the Jacobi symbol of the message, for all moduli and all odd exponents, in particular all that
have a private exponent when one of the primes is odd. Anyone can compute it from the public key. -/
theorem C133_jacobi {cap : Nat → Nat} (hc : CapOk cap) (m e n : Nat) (hn : 2 ≤ n) (he : e % 2 = 1)
    (hsn : n.size ≤ 2 ^ 31 - 8) (hsm : m.size ≤ 2 ^ 31 - 8) (hse : e.size ≤ 2 ^ 32 - 8) :
    ∃ c, encrypt cap ⟨big e, big n⟩ (big m) = .ok c ∧ jacobiSym (val c) n = jacobiSym m n := by
  refine ⟨_, (C50_encrypt hc m e n hn hsn hsm hse).1, ?_⟩
  rw [val_big]
  have h1 : jacobiSym ((m ^ e % n : Nat) : Int) n = jacobiSym m n ^ e := by
    push_cast
    rw [← jacobiSym.mod_left, jacobiSym.pow_left]
  rw [h1]
  obtain ⟨k, rfl⟩ : ∃ k, e = 2 * k + 1 := ⟨e / 2, by omega⟩
  rcases jacobiSym.trichotomy (m : Int) n with h | h | h <;> rw [h]
  · exact zero_pow (by omega)
  · exact one_pow _
  · rw [pow_add, pow_mul]
    norm_num

/-- C133: keys that work have an odd exponent, so the symbol leaks with all of them. -/
theorem C133_working_keys {cap : Nat → Nat} (hc : CapOk cap) (n e d : Nat) (hn : 3 ≤ n) (hodd : n % 2 = 1)
    (hsn : n.size ≤ 2 ^ 31 - 8) (hse : e.size ≤ 2 ^ 32 - 8) (hsd : d.size ≤ 2 ^ 32 - 8) (hw : Works cap n e d)
    (m : Nat) (hm : m < n) :
    ∃ c, encrypt cap ⟨big e, big n⟩ (big m) = .ok c ∧ jacobiSym (val c) n = jacobiSym m n := by
  apply C133_jacobi hc m e n (by omega) ?_ hsn (Nat.le_trans (Nat.size_le_size hm.le) hsn) hse
  rcases (C132_iff hc n e d (by omega) hsn hse hsd).1 hw with ⟨rfl, _⟩ | ⟨_, _, h⟩
  · rfl
  · obtain ⟨r, hr, hrn⟩ := Nat.exists_prime_and_dvd (by omega : n ≠ 1)
    have h2 : r % 2 = 1 := by
      rcases hr.eq_two_or_odd with rfl | h2
      · omega
      · exact h2
    have h3 := (h r hr hrn).of_dvd (show 2 ∣ r - 1 by omega)
    by_contra h4
    have h5 : e * d % 2 = 0 := Nat.mod_eq_zero_of_dvd (Dvd.dvd.mul_right (by omega) d)
    rw [Nat.ModEq, h5] at h3
    exact nomatch h3

/-- C133: the same for `create_keys`: whatever it returns for an odd `p` and an odd `q` leaks the symbol. -/
theorem C133_create_keys {cap : Nat → Nat} (hc : CapOk cap) (p q e : BigUint) (sk : PrivateKey) (pk : PublicKey)
    (hk : createKeys p q e = .ok (sk, pk)) (hp : val p % 2 = 1) (hn : 2 ≤ val p * val q) (m : Nat)
    (hm : m < val p * val q) :
    ∃ c, encrypt cap (.ofPublic pk) (big m) = .ok c ∧ jacobiSym (val c) (val p * val q) = jacobiSym m (val p * val q) := by
  obtain ⟨_, _, f3, f4, f5⟩ := C92_keys_only_if p q e sk pk hk
  obtain ⟨g1, g2, g3, _⟩ := C92_keys_sound p q e sk pk hk
  obtain ⟨_, _, h3, h4⟩ := C92_keys_normalised p q e sk pk hk
  have he : val e % 2 = 1 := by
    have h2 : 2 ∣ Nat.lcm (val p - 1) (val q - 1) := Dvd.dvd.trans (by omega) (Nat.dvd_lcm_left _ _)
    have h5 := Nat.Coprime.coprime_dvd_right h2 f5
    exact Nat.odd_iff.1 (Nat.coprime_two_right.1 h5)
  have := C133_jacobi hc m (val e) (val p * val q) hn he (Nat.le_trans (size_lt _ f3) (by norm_num))
    (Nat.le_trans (size_lt _ (Nat.lt_trans hm f3)) (by norm_num)) (Nat.le_trans (size_lt _ f4) (by norm_num))
  unfold RsaEncryption.ofPublic
  rw [h3, h4, g3, ← g2, g1]
  exact this

/-- The symbol tells 2 from 5 under the key made from 3 and 11. -/
example : createKeys ⟨[3#8]⟩ ⟨[11#8]⟩ ⟨[3#8]⟩ = .ok (⟨⟨[33#8]⟩, ⟨[7#8]⟩⟩, ⟨⟨[33#8]⟩, ⟨[3#8]⟩⟩) ∧
    encrypt exactCap ⟨⟨[3#8]⟩, ⟨[33#8]⟩⟩ ⟨[2#8]⟩ = .ok ⟨[8#8]⟩ ∧
    encrypt exactCap ⟨⟨[3#8]⟩, ⟨[33#8]⟩⟩ ⟨[5#8]⟩ = .ok ⟨[26#8]⟩ := by
  refine ⟨?_, ?_, ?_⟩ <;> decide +kernel

example : jacobiSym 8 33 = 1 ∧ jacobiSym 2 33 = 1 ∧ jacobiSym 26 33 = -1 ∧ jacobiSym 5 33 = -1 := by
  refine ⟨?_, ?_, ?_, ?_⟩ <;> norm_num

/-- The theorem applied to this key and the number 5. -/
example : ∃ c, encrypt exactCap (.ofPublic ⟨⟨[33#8]⟩, ⟨[3#8]⟩⟩) (big 5) = .ok c ∧
    jacobiSym (val c) (3 * 11) = jacobiSym (5 : Nat) (3 * 11) :=
  C133_create_keys exactCap_ok ⟨[3#8]⟩ ⟨[11#8]⟩ ⟨[3#8]⟩ ⟨⟨[33#8]⟩, ⟨[7#8]⟩⟩ _ (by decide +kernel) (by decide) (by decide) 5
    (by decide)

/-- C133 applied to a modulus that is no product of two primes. -/
example : ∃ c, encrypt exactCap ⟨big 5, big 105⟩ (big 2) = .ok c ∧ jacobiSym (val c) 105 = jacobiSym (2 : Nat) 105 :=
  have h : ∀ x : Nat, x < 2 ^ 128 → x.size ≤ 128 := size_lt
  C133_jacobi exactCap_ok 2 5 105 (by norm_num) (by norm_num) (Nat.le_trans (h 105 (by norm_num)) (by norm_num))
    (Nat.le_trans (h 2 (by norm_num)) (by norm_num)) (Nat.le_trans (h 5 (by norm_num)) (by norm_num))

end Verif.Props
