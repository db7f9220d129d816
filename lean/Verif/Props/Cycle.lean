import Verif.Spec.Cycle
import Verif.Props.RsaFactor
import Verif.Props.Manger
import Mathlib.FieldTheory.Finite.Basic

/-! # C156: encrypting a ciphertext again and again (G. Simmons, M. Norris) -/

namespace Verif.Props
open Verif Verif.Model.Big Verif.Model.Rsa Verif.Spec.Big
open _root_.Verif.Spec.Cycle (Repeated)

/-- C156: encrypting `k` times is raising to the power `e ^ k`. -/
theorem C156_value {cap : Nat → Nat} (hc : CapOk cap) (e n m k : Nat) (hn : 2 ≤ n) (hsn : n.size ≤ 2 ^ 31 - 8)
    (hse : e.size ≤ 2 ^ 32 - 8) (hm : m < n) (y : BigUint) :
    Repeated (encrypt cap ⟨big e, big n⟩) k (big m) y ↔ y = big (m ^ (e ^ k) % n) := by
  have hs : ∀ z, z < n → z.size ≤ 2 ^ 31 - 8 := fun z hz => Nat.le_trans (Nat.size_le_size hz.le) hsn
  have hstep : ∀ k, encrypt cap ⟨big e, big n⟩ (big (m ^ (e ^ k) % n)) = .ok (big (m ^ (e ^ (k + 1)) % n)) := by
    intro k
    rw [(C50_encrypt hc _ e n hn hsn (hs _ (Nat.mod_lt _ (by omega))) hse).1, ← Nat.pow_mod, ← Nat.pow_mul, ← Nat.pow_succ]
  induction k generalizing y with
  | zero =>
    rw [Nat.pow_zero, Nat.pow_one, Nat.mod_eq_of_lt hm]
    constructor
    · rintro ⟨⟩
      rfl
    · rintro rfl
      exact .none _
  | succ k ih =>
    constructor
    · intro h
      cases h with
      | more h1 h2 =>
        rw [(ih _).1 h1, hstep] at h2
        exact (Except.ok.inj h2).symm
    · rintro rfl
      exact .more ((ih _).2 rfl) (hstep k)

/-- C156: the cycling attack: if after `k + 1` more encryptions the ciphertext comes back then after `k` of them there was the
message. -/
theorem C156_attack {cap : Nat → Nat} (hc : CapOk cap) (p q e d : Nat) (key : KeyPair p q e d) (m : Nat) (hm : m < p * q)
    (c : BigUint) (hct : encrypt cap ⟨big e, big (p * q)⟩ (big m) = .ok c) (k : Nat)
    (hk : Repeated (encrypt cap ⟨big e, big (p * q)⟩) (k + 1) c c) (y : BigUint)
    (hy : Repeated (encrypt cap ⟨big e, big (p * q)⟩) k c y) : y = big m := by
  have hn : 2 ≤ p * q := Nat.le_trans key.p_prime.two_le (Nat.le_mul_of_pos_right p key.q_prime.pos)
  have hs : ∀ z, z < p * q → z.size ≤ 2 ^ 31 - 8 := fun z hz => Nat.le_trans (Nat.size_le_size hz.le) key.modulus_size
  rw [(C50_encrypt hc m e (p * q) hn key.modulus_size (hs m hm) key.e_size).1] at hct
  have hcv : c = big (m ^ e % (p * q)) := (Except.ok.inj hct).symm
  have hlt : m ^ e % (p * q) < p * q := Nat.mod_lt _ (by omega)
  rw [hcv] at hk hy
  rw [C156_value hc e (p * q) _ _ hn key.modulus_size key.e_size hlt] at hk hy
  have h1 := congrArg val hk
  rw [Model.Big.val_big, Model.Big.val_big, ← Nat.pow_mod, ← Nat.pow_mul] at h1
  rw [hy, ← Nat.pow_mod, ← Nat.pow_mul, ← Nat.pow_succ']
  congr 1
  have h2 := congrArg (fun x => x ^ d % (p * q)) h1
  simp only [← Nat.pow_mod, ← Nat.pow_mul] at h2
  have hx := pow_cancel p q e d key
  rw [hx, Nat.mod_eq_of_lt hm] at h2
  rw [show e * e ^ (k + 1) * d = e ^ (k + 1) * (e * d) by rw [Nat.mul_comm e, Nat.mul_assoc], Nat.pow_mul, hx] at h2
  exact h2.symm

theorem e_pow_totient (p q e d : Nat) (key : KeyPair p q e d) :
    e ^ (Nat.lcm (p - 1) (q - 1)).totient ≡ 1 [MOD Nat.lcm (p - 1) (q - 1)] := by
  apply Nat.ModEq.pow_totient
  exact Nat.coprime_of_mul_modEq_one d key.inverse

/-- C156: this always happens: there is a number of encryptions, at most the least common multiple of `p - 1` and `q - 1`, that
brings every number back. (For good primes the number is too large to be of use.) -/
theorem C156_exists {cap : Nat → Nat} (hc : CapOk cap) (p q e d : Nat) (key : KeyPair p q e d) :
    ∃ t, 0 < t ∧ t ≤ Nat.lcm (p - 1) (q - 1) ∧ ∀ m, m < p * q →
      Repeated (encrypt cap ⟨big e, big (p * q)⟩) t (big m) (big m) := by
  have hn : 2 ≤ p * q := Nat.le_trans key.p_prime.two_le (Nat.le_mul_of_pos_right p key.q_prime.pos)
  have hp1 : 0 < p - 1 := Nat.sub_pos_of_lt key.p_prime.one_lt
  have hq1 : 0 < q - 1 := Nat.sub_pos_of_lt key.q_prime.one_lt
  have hl : 0 < Nat.lcm (p - 1) (q - 1) := Nat.lcm_pos hp1 hq1
  refine ⟨(Nat.lcm (p - 1) (q - 1)).totient, Nat.totient_pos.2 hl, Nat.totient_le _, fun m hm => ?_⟩
  rw [C156_value hc e (p * q) m _ hn key.modulus_size key.e_size hm]
  congr 1
  have := Model.Rsa.rsa_correct p q (e ^ (Nat.lcm (p - 1) (q - 1)).totient) 1 m key.p_prime key.q_prime key.distinct
    (by rw [Nat.mul_one]; exact e_pow_totient p q e d key) hm
  rw [Nat.mul_one] at this
  exact this.symm

/-- C156: and if the ciphertext comes back modulo one of the primes but not modulo the other then the prime is found. -/
theorem C156_factor (p q e c k : Nat) (hp : p.Prime) (hq : q.Prime) (h1 : c ^ (e ^ k) ≡ c [MOD p])
    (h2 : ¬ c ^ (e ^ k) ≡ c [MOD q]) :
    Int.gcd ((c ^ (e ^ k) % (p * q) : Nat) - c) (p * q : Nat) = p := by
  have hmod : ((c ^ (e ^ k) % (p * q) : Nat) : Int) - c ≡ (c : Int) ^ (e ^ k) - c [ZMOD (p * q : Nat)] := by
    refine Int.ModEq.sub_right _ ?_
    push_cast
    exact Int.mod_modEq _ _
  have hg : Int.gcd ((c ^ (e ^ k) % (p * q) : Nat) - c) (p * q : Nat) = Int.gcd ((c : Int) ^ (e ^ k) - c) (p * q : Nat) :=
    by rw [← Int.gcd_emod, hmod, Int.gcd_emod]
  rw [hg]
  have hpd : (p : Int) ∣ (c : Int) ^ (e ^ k) - c := by
    have := (Nat.modEq_iff_dvd.1 h1.symm)
    push_cast at this
    exact this
  have hqd : ¬ (q : Int) ∣ (c : Int) ^ (e ^ k) - c := by
    intro h
    apply h2
    apply Nat.ModEq.symm
    rw [Nat.modEq_iff_dvd]
    push_cast
    exact h
  have hd : Int.gcd ((c : Int) ^ (e ^ k) - c) (p * q : Nat) ∣ p * q := by
    have := Int.gcd_dvd_right ((c : Int) ^ (e ^ k) - c) ((p * q : Nat) : Int)
    exact_mod_cast this
  have hpg : p ∣ Int.gcd ((c : Int) ^ (e ^ k) - c) (p * q : Nat) := by
    apply Int.natCast_dvd_natCast.1
    exact Int.dvd_coe_gcd hpd (by push_cast; exact Dvd.intro _ rfl)
  have hqg : ¬ q ∣ Int.gcd ((c : Int) ^ (e ^ k) - c) (p * q : Nat) := by
    intro h
    apply hqd
    exact (Int.natCast_dvd_natCast.2 h).trans (Int.gcd_dvd_left _ _)
  obtain ⟨r, hr⟩ := hpg
  rw [hr] at hd hqg ⊢
  have hrq : r ∣ q := Nat.dvd_of_mul_dvd_mul_left hp.pos hd
  rcases (Nat.dvd_prime hq).1 hrq with rfl | rfl
  · exact Nat.mul_one p
  · exact absurd (Dvd.intro_left _ rfl) hqg

/-- Not vacuous: the key of `n = 55` with exponents 3 and 7: the ciphertext 8 of 2 comes back after four encryptions, modulo 5
already after two (and not modulo 11). -/
theorem tiny_key : KeyPair 5 11 3 7 where
  p_prime := by norm_num
  q_prime := by norm_num
  distinct := by norm_num
  inverse := by decide
  modulus_size := by decide +kernel
  e_size := by decide +kernel
  d_size := by decide +kernel
example : ∀ y, Repeated (encrypt exactCap ⟨big 3, big (5 * 11)⟩) 3 (big 8) y → y = big 2 :=
  fun y hy => C156_attack exactCap_ok 5 11 3 7 tiny_key 2 (by decide) (big 8) (by decide +kernel) 3
    ((C156_value exactCap_ok 3 (5 * 11) 8 4 (by decide) (by decide +kernel) (by decide +kernel) (by decide) _).2
      (by decide +kernel)) y hy
example : Int.gcd ((8 ^ 3 ^ 2 % (5 * 11) : Nat) - (8 : Nat)) (5 * 11 : Nat) = 5 :=
  C156_factor 5 11 3 8 2 (by norm_num) (by norm_num) (by decide +kernel) (by decide +kernel)

end Verif.Props
