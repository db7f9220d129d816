import Verif.Props.Rsa
import Mathlib.Tactic.Ring
import Mathlib.Tactic.Linarith

/-! # C159: the upper half of a private exponent (D. Boneh, G. Durfee, Y. Frankel) -/

namespace Verif.Props
open Verif Verif.Model.Big Verif.Model.Rsa Verif.Spec.Big

/-- A guess of the private exponent from the public key alone: `k` is a number below `e`, and `g` the greatest common divisor of
the primes minus one, usually 2. -/
def guess (n e k g : Nat) : Nat := (k * (n + 1) + g) / (e * g)

theorem guess_close (p q e d : Nat) (hp : 2 ≤ p) (hq : 2 ≤ q) (hl : 2 ≤ Nat.lcm (p - 1) (q - 1))
    (h : e * d ≡ 1 [MOD Nat.lcm (p - 1) (q - 1)]) (hd : d ≤ Nat.lcm (p - 1) (q - 1)) :
    ∃ k < e, d ≤ guess (p * q) e k (Nat.gcd (p - 1) (q - 1)) ∧
      guess (p * q) e k (Nat.gcd (p - 1) (q - 1)) ≤ d + (p + q) / Nat.gcd (p - 1) (q - 1) := by
  set L := Nat.lcm (p - 1) (q - 1) with hL
  set g := Nat.gcd (p - 1) (q - 1) with hg
  have hgpos : 0 < g := Nat.gcd_pos_of_pos_left _ (by omega)
  have hgL : g * L = (p - 1) * (q - 1) := Nat.gcd_mul_lcm _ _
  have hed : 0 < e * d := by
    rcases Nat.eq_zero_or_pos (e * d) with h0 | h0
    · rw [h0] at h
      have h1 : 0 % L = 1 % L := h
      rw [Nat.zero_mod, Nat.mod_eq_of_lt (by omega)] at h1
      omega
    · exact h0
  obtain ⟨k, hk⟩ := (Nat.modEq_iff_dvd' hed).1 h.symm
  have hed' : e * d = L * k + 1 := by omega
  have he : 0 < e := Nat.pos_of_mul_pos_right hed
  have hke : k < e := by
    by_contra hlt
    have h1 : L * e ≤ L * k := Nat.mul_le_mul_left L (by omega)
    have h2 : e * d ≤ e * L := Nat.mul_le_mul_left e hd
    rw [Nat.mul_comm e L] at h2
    omega
  obtain ⟨a, rfl⟩ : ∃ a, p = a + 1 := ⟨p - 1, by omega⟩
  obtain ⟨b, rfl⟩ : ∃ b, q = b + 1 := ⟨q - 1, by omega⟩
  simp only [Nat.add_sub_cancel] at hgL
  have hmain : e * g * d + k * (a + 1 + (b + 1)) = k * ((a + 1) * (b + 1) + 1) + g := by
    have h1 : e * g * d = g * L * k + g := by
      calc e * g * d = g * (e * d) := by ring
        _ = g * (L * k + 1) := by rw [hed']
        _ = g * L * k + g := by ring
    rw [h1, hgL]
    ring
  refine ⟨k, hke, ?_, ?_⟩
  · unfold guess
    rw [Nat.le_div_iff_mul_le (Nat.mul_pos he hgpos), ← hmain, Nat.mul_comm d]
    exact Nat.le_add_right _ _
  · unfold guess
    rw [← hmain, Nat.mul_add_div (Nat.mul_pos he hgpos)]
    refine Nat.add_le_add_left ?_ d
    rw [← Nat.div_div_eq_div_mul]
    refine Nat.div_le_div_right ?_
    refine Nat.div_le_of_le_mul ?_
    exact Nat.mul_le_mul_right _ hke.le

/-- C159: for all keys that `create_keys` makes from two different primes one of `e` numbers that can be computed from the
public key (and the greatest common divisor of the primes minus one) is the private exponent up to `p + q` divided by that
divisor. -/
theorem C159_guess (p q e : Nat) (hp : p.Prime) (hq : q.Prime) (hpq : p ≠ q) (sk : PrivateKey) (pk : PublicKey)
    (h : createKeys (big p) (big q) (big e) = .ok (sk, pk)) :
    ∃ k < val pk.e, val sk.d ≤ guess (val pk.n) (val pk.e) k (Nat.gcd (p - 1) (q - 1)) ∧
      guess (val pk.n) (val pk.e) k (Nat.gcd (p - 1) (q - 1)) ≤ val sk.d + (p + q) / Nat.gcd (p - 1) (q - 1) := by
  have hp2 := hp.two_le
  have hq2 := hq.two_le
  have hl2 : 2 ≤ Nat.lcm (p - 1) (q - 1) := by
    have h1 : p - 1 ≤ Nat.lcm (p - 1) (q - 1) := Nat.le_of_dvd (Nat.lcm_pos (by omega) (by omega)) (Nat.dvd_lcm_left _ _)
    have h2 : q - 1 ≤ Nat.lcm (p - 1) (q - 1) := Nat.le_of_dvd (Nat.lcm_pos (by omega) (by omega)) (Nat.dvd_lcm_right _ _)
    omega
  by_cases hbig : 2 ^ 128 ≤ p ∨ 2 ^ 128 ≤ q ∨ 2 ^ 128 ≤ e
  · rw [C48_create_keys_not_u128 p q e hbig] at h
    cases h
  · by_cases hpq' : p * q < 2 ^ 128
    · by_cases hco : Nat.Coprime e (Nat.lcm (p - 1) (q - 1))
      · obtain ⟨d, h1, h2, h3⟩ := C48_create_keys p q e hp hq hpq' (by omega) hco
        rw [h] at h1
        obtain ⟨rfl, rfl⟩ := Prod.mk.inj (Except.ok.inj h1)
        simp only [Model.Big.val_big]
        exact guess_close p q e d hp2 hq2 hl2 h2 h3
      · rw [C48_create_keys_panics p q e hp hq hpq' (by omega) hco] at h
        cases h
    · rw [C48_create_keys_too_big p q e (by omega) (by omega) (by omega) (by omega)] at h
      cases h

/-- C159: for primes of about the same size `p + q` has half as many bits as the modulus, so the upper half of the private
exponent is in the guess: `(p + q)² ≤ 4.5 n`. -/
theorem C159_half (p q : Nat) (h1 : p ≤ q) (h2 : q ≤ 2 * p) : 2 * (p + q) ^ 2 ≤ 9 * (p * q) := by
  obtain ⟨a, rfl⟩ := Nat.exists_eq_add_of_le h1
  obtain ⟨b, hb⟩ := Nat.exists_eq_add_of_le h2
  have hpa : p = a + b := by omega
  subst hpa
  nlinarith

/-- C159: the same holds for keys of any size that were made elsewhere, if `d ≤ lcm(p - 1, q - 1)`. -/
theorem C159_elsewhere (p q e d : Nat) (hp : p.Prime) (hq : q.Prime) (hpq : p ≠ q)
    (h : e * d ≡ 1 [MOD Nat.lcm (p - 1) (q - 1)]) (hd : d ≤ Nat.lcm (p - 1) (q - 1)) :
    ∃ k < e, d ≤ guess (p * q) e k (Nat.gcd (p - 1) (q - 1)) ∧
      guess (p * q) e k (Nat.gcd (p - 1) (q - 1)) ≤ d + (p + q) / Nat.gcd (p - 1) (q - 1) := by
  have hp2 := hp.two_le
  have hq2 := hq.two_le
  refine guess_close p q e d hp2 hq2 ?_ h hd
  have h1 : p - 1 ≤ Nat.lcm (p - 1) (q - 1) := Nat.le_of_dvd (Nat.lcm_pos (by omega) (by omega)) (Nat.dvd_lcm_left _ _)
  have h2 : q - 1 ≤ Nat.lcm (p - 1) (q - 1) := Nat.le_of_dvd (Nat.lcm_pos (by omega) (by omega)) (Nat.dvd_lcm_right _ _)
  omega

/-- Not vacuous: the primes 1000037 and 1000289 with exponent 3 give a private exponent of 38 bits; the guess with `k = 2`
(and `g = 4`) has the same upper bits. -/
example : createKeys (big 1000037) (big 1000289) (big 3) = .ok (⟨big 1000326010693, big 166720668395⟩,
      ⟨big 1000326010693, big 3⟩) ∧
    Nat.gcd (1000037 - 1) (1000289 - 1) = 4 ∧ guess 1000326010693 3 2 4 = 166721001782 ∧
    166721001782 / 2 ^ 20 = 166720668395 / 2 ^ 20 := by decide +kernel
example : Nat.Prime 1000037 ∧ Nat.Prime 1000289 := by norm_num

end Verif.Props
