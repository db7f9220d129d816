import Verif.Spec.BadPrimes
import Verif.Props.KeyGen
import Verif.Props.RsaExact
import Mathlib.FieldTheory.Finite.Basic
import Mathlib.Tactic.Linarith
import Mathlib.Tactic.Ring

/-! # C151: keys made from badly chosen primes -/

namespace Verif.Props
open Verif Verif.Model.Big Verif.Model.Rsa Verif.Spec.Big
open _root_.Verif.Spec.BadPrimes (fermat pollard shared)

namespace BadPrimes

/-- The smallest number whose square is not below `n`. -/
def start (n : Nat) : Nat := if Nat.sqrt n * Nat.sqrt n = n then Nat.sqrt n else Nat.sqrt n + 1

theorem le_start (n : Nat) : n ≤ start n * start n := by
  unfold start
  split
  · omega
  · exact (Nat.lt_succ_sqrt n).le

theorem sqrt_le_start (n : Nat) : Nat.sqrt n ≤ start n := by unfold start; split <;> omega

theorem start_le {n a : Nat} (h : n ≤ a * a) : start n ≤ a := by
  unfold start
  have h1 : Nat.sqrt n ≤ a := by
    have := Nat.sqrt_le_sqrt h
    rwa [Nat.sqrt_eq] at this
  split
  · exact h1
  · rename_i hne
    rcases Nat.lt_or_ge (Nat.sqrt n) a with h2 | h2
    · exact h2
    · have h3 : a = Nat.sqrt n := by omega
      have := Nat.sqrt_le n
      rw [h3] at h
      omega

/-- What one try gives is a factorisation. -/
theorem try_sound {n a b x y : Nat} (hn : n ≤ a * a)
    (h : (if b * b = a * a - n ∧ 1 < a - b then some (a + b, a - b) else none) = some (x, y)) :
    x * y = n ∧ 1 < y ∧ y ≤ x ∧ x + y = 2 * a := by
  split at h
  · rename_i hc
    obtain ⟨h1, h2⟩ := hc
    cases h
    refine ⟨?_, h2, by omega, by omega⟩
    rw [← Nat.mul_self_sub_mul_self_eq]
    omega
  · cases h

theorem pq_unique {p q x y : Nat} (hp : p.Prime) (hq : q.Prime) (hqp : q ≤ p) (h : x * y = p * q) (hy : 1 < y) (hyx : y ≤ x) :
    x = p ∧ y = q := by
  have hpd : p ∣ x * y := ⟨q, h⟩
  rcases (Nat.Prime.dvd_mul hp).1 hpd with ⟨k, rfl⟩ | ⟨k, rfl⟩
  · have hkq : k * y = q := by
      have : p * (k * y) = p * q := by rw [← h]; ring
      exact Nat.eq_of_mul_eq_mul_left hp.pos this
    rcases (Nat.Prime.eq_one_or_self_of_dvd hq y ⟨k, by rw [← hkq]; ring⟩) with h1 | h1
    · omega
    · subst h1
      have : k = 1 := Nat.eq_of_mul_eq_mul_right hq.pos (by omega)
      exact ⟨by rw [this, Nat.mul_one], rfl⟩
  · have hkq : x * k = q := by
      have : p * (x * k) = p * q := by rw [← h]; ring
      exact Nat.eq_of_mul_eq_mul_left hp.pos this
    rcases (Nat.Prime.eq_one_or_self_of_dvd hq x ⟨k, hkq.symm⟩) with h1 | h1
    · omega
    · subst h1
      have : k = 1 := Nat.eq_of_mul_eq_mul_left hq.pos (by omega)
      subst this
      rw [Nat.mul_one] at *
      exact ⟨by omega, by omega⟩

end BadPrimes

open BadPrimes

/-- C151: what Fermat's method finds is a factorisation. -/
theorem C151_fermat_sound (n t x y : Nat) (h : fermat n t = some (x, y)) : x * y = n ∧ 1 < y ∧ y ≤ x := by
  unfold fermat at h
  obtain ⟨i, _, hi⟩ := List.exists_of_findSome?_eq_some h
  have := try_sound (n := n) (a := start n + i)
    (Nat.le_trans (le_start n) (Nat.mul_le_mul (Nat.le_add_right _ _) (Nat.le_add_right _ _))) hi
  exact ⟨this.1, this.2.1, this.2.2.1⟩

/-- C151: Fermat's method finds the two primes of the modulus if and only if it is given more tries than half the sum of the
primes exceeds the root of the modulus. -/
theorem C151_fermat_exact (p q t : Nat) (hp : p.Prime) (hq : q.Prime) (hp2 : p ≠ 2) (hq2 : q ≠ 2) (hqp : q ≤ p) :
    fermat (p * q) t = some (p, q) ↔ (p + q) / 2 < (if Nat.sqrt (p * q) * Nat.sqrt (p * q) = p * q then Nat.sqrt (p * q)
      else Nat.sqrt (p * q) + 1) + t := by
  change _ ↔ _ < start (p * q) + t
  have hpo := hp.eq_two_or_odd.resolve_left hp2
  have hqo := hq.eq_two_or_odd.resolve_left hq2
  obtain ⟨a, ha⟩ : ∃ a, p + q = 2 * a := ⟨(p + q) / 2, by omega⟩
  obtain ⟨b, hb⟩ : ∃ b, p - q = 2 * b := ⟨(p - q) / 2, by omega⟩
  have ep : p = a + b := by omega
  have eq : q = a - b := by omega
  have hab : p * q = a * a - b * b := by rw [Nat.mul_self_sub_mul_self_eq, ← ep, ← eq]
  have hbb : b * b ≤ a * a := Nat.mul_le_mul (by omega) (by omega)
  have hle : p * q ≤ a * a := by omega
  have hs := start_le hle
  have hea : (p + q) / 2 = a := by omega
  rw [hea]
  constructor
  · intro h
    unfold fermat at h
    obtain ⟨i, hi, h⟩ := List.exists_of_findSome?_eq_some h
    have := (try_sound (n := p * q) (a := start (p * q) + i)
      (Nat.le_trans (le_start _) (Nat.mul_le_mul (Nat.le_add_right _ _) (Nat.le_add_right _ _))) h).2.2.2
    have := List.mem_range.1 hi
    omega
  · intro ht
    unfold fermat
    cases hf : (List.range t).findSome? fun i =>
        let s := if Nat.sqrt (p * q) * Nat.sqrt (p * q) = p * q then Nat.sqrt (p * q) else Nat.sqrt (p * q) + 1
        let a := s + i
        let b := Nat.sqrt (a * a - p * q)
        if b * b = a * a - p * q ∧ 1 < a - b then some (a + b, a - b) else none with
    | some r =>
      obtain ⟨x, y⟩ := r
      obtain ⟨h1, h2, h3⟩ := C151_fermat_sound (p * q) t x y hf
      obtain ⟨rfl, rfl⟩ := pq_unique hp hq hqp h1 h2 h3
      rfl
    | none =>
      exfalso
      rw [List.findSome?_eq_none_iff] at hf
      have := hf (a - start (p * q)) (List.mem_range.2 (by omega))
      simp only at this
      have e : (if Nat.sqrt (p * q) * Nat.sqrt (p * q) = p * q then Nat.sqrt (p * q) else Nat.sqrt (p * q) + 1) +
          (a - start (p * q)) = a := by
        change start (p * q) + _ = a; omega
      rw [e] at this
      have e2 : a * a - p * q = b * b := by omega
      rw [e2, Nat.sqrt_eq, if_pos ⟨rfl, by have := hq.two_le; omega⟩] at this
      cases this

/-- C151: so it finds them in `t` tries if the square of their difference is less than 8 t times the root of the modulus; in
one try if the difference is less than about 2.8 times the fourth root. -/
theorem C151_close_primes (p q t : Nat) (hp : p.Prime) (hq : q.Prime) (hp2 : p ≠ 2) (hq2 : q ≠ 2) (hqp : q ≤ p)
    (hclose : (p - q) ^ 2 < 8 * t * Nat.sqrt (p * q)) : fermat (p * q) t = some (p, q) := by
  rw [C151_fermat_exact p q t hp hq hp2 hq2 hqp]
  change _ < start (p * q) + t
  have hpo := hp.eq_two_or_odd.resolve_left hp2
  have hqo := hq.eq_two_or_odd.resolve_left hq2
  obtain ⟨a, ha⟩ : ∃ a, p + q = 2 * a := ⟨(p + q) / 2, by omega⟩
  obtain ⟨b, hb⟩ : ∃ b, p - q = 2 * b := ⟨(p - q) / 2, by omega⟩
  have ep : p = a + b := by omega
  have eq : q = a - b := by omega
  have hab : p * q = a * a - b * b := by rw [Nat.mul_self_sub_mul_self_eq, ← ep, ← eq]
  have hbb : b * b ≤ a * a := Nat.mul_le_mul (by omega) (by omega)
  have h1 := le_start (p * q)
  have h2 := sqrt_le_start (p * q)
  have hs := start_le (show p * q ≤ a * a by omega)
  rw [show (p + q) / 2 = a by omega]
  by_contra hge
  generalize start (p * q) = s at *
  generalize Nat.sqrt (p * q) = r at *
  obtain ⟨i, rfl⟩ : ∃ i, a = s + t + i := ⟨a - s - t, by omega⟩
  have h3 : (p - q) ^ 2 = 4 * (b * b) := by rw [hb]; ring
  have h4 : (s + t + i) * (s + t + i) = s * s + 2 * s * t + (t * t + 2 * s * i + 2 * t * i + i * i) := by ring
  have h5 : r * t ≤ s * t := Nat.mul_le_mul_right _ h2
  have h6 : 8 * t * r = 8 * (r * t) := by ring
  have h7 : 2 * s * t = 2 * (s * t) := by ring
  omega

/-- C151: Pollard's method finds a prime of the modulus if the prime is one more than a divisor of `B!`, except for bases that
happen to do the same for the other prime. -/
theorem C151_smooth_primes (p q a B : Nat) (hp : p.Prime) (hq : q.Prime) (hB : p - 1 ∣ Nat.factorial B) (ha : ¬ p ∣ a)
    (hother : ¬ q ∣ a ^ Nat.factorial B - 1) : pollard (p * q) a B = p := by
  unfold pollard
  have hdvd : p ∣ a ^ Nat.factorial B - 1 := by
    obtain ⟨k, hk⟩ := hB
    have hpow : a ^ Nat.factorial B ≡ 1 [MOD p] := by
      have h1 : a ^ (p - 1) ≡ 1 [MOD p] := by
        have := Nat.ModEq.pow_totient ((Nat.Prime.coprime_iff_not_dvd hp).2 ha).symm
        rwa [Nat.totient_prime hp] at this
      rw [hk, Nat.pow_mul]
      have := h1.pow k
      rwa [Nat.one_pow] at this
    have ha0 : 0 < a := Nat.pos_of_ne_zero fun h => ha (h ▸ dvd_zero p)
    exact (Nat.modEq_iff_dvd' (Nat.pow_pos ha0)).1 hpow.symm
  have hco : Nat.Coprime (a ^ Nat.factorial B - 1) q := ((Nat.Prime.coprime_iff_not_dvd hq).2 hother).symm
  rw [Nat.Coprime.gcd_mul_right_cancel_right _ hco.symm, Nat.gcd_eq_right hdvd]

/-- C151: two moduli with a common prime give it away, and with it the other two. -/
theorem C151_shared_prime (p q r : Nat) (hp : p.Prime) (hq : q.Prime) (hr : r.Prime) (hqr : q ≠ r) :
    shared (p * q) (p * r) = p ∧ p * q / shared (p * q) (p * r) = q ∧ p * r / shared (p * q) (p * r) = r := by
  have h : shared (p * q) (p * r) = p := by
    unfold shared
    rw [Nat.gcd_mul_left, (Nat.coprime_primes hq hr).2 hqr, Nat.mul_one]
  rw [h]
  exact ⟨rfl, Nat.mul_div_cancel_left q hp.pos, Nat.mul_div_cancel_left r hp.pos⟩

/-- C151: `create_keys` looks for none of this: it makes the same kind of key from all primes whose product has at most 128 bits,
so that the three methods apply to the public modulus it returns. -/
theorem C151_create_keys (p q e : BigUint) (sk : PrivateKey) (pk : PublicKey) (hk : createKeys p q e = .ok (sk, pk))
    (hp : (val p).Prime) (hq : (val q).Prime) (hp2 : val p ≠ 2) (hq2 : val q ≠ 2) (hqp : val q ≤ val p) :
    (∀ t, (val p - val q) ^ 2 < 8 * t * Nat.sqrt (val p * val q) → fermat (val pk.n) t = some (val p, val q)) ∧
    (∀ a B, val p - 1 ∣ Nat.factorial B → ¬ val p ∣ a → ¬ val q ∣ a ^ Nat.factorial B - 1 → pollard (val pk.n) a B = val p) := by
  obtain ⟨g1, g2, g3, _⟩ := C92_keys_sound p q e sk pk hk
  rw [← g2, g1]
  exact ⟨fun t h => C151_close_primes _ _ t hp hq hp2 hq2 hqp h, fun a B h1 h2 h3 => C151_smooth_primes _ _ a B hp hq h1 h2 h3⟩

/-- C151: and two calls with a common prime. -/
theorem C151_create_keys_shared (p q r e e' : BigUint) (sk sk' : PrivateKey) (pk pk' : PublicKey)
    (hk : createKeys p q e = .ok (sk, pk)) (hk' : createKeys p r e' = .ok (sk', pk')) (hp : (val p).Prime)
    (hq : (val q).Prime) (hr : (val r).Prime) (hqr : val q ≠ val r) :
    shared (val pk.n) (val pk'.n) = val p := by
  obtain ⟨g1, g2, _⟩ := C92_keys_sound p q e sk pk hk
  obtain ⟨g1', g2', _⟩ := C92_keys_sound p r e' sk' pk' hk'
  rw [← g2, g1, ← g2', g1']
  exact (C151_shared_prime _ _ _ hp hq hr hqr).1

/-- Examples: the twin primes 1033 and 1031 are found with one try, from the key that `create_keys` makes of them; 1033 and 5 are
not found with 400; 60 divides 5!; two moduli with the prime 61. -/
example : ∃ sk pk, createKeys (big 1033) (big 1031) (big 7) = .ok (sk, pk) ∧ fermat (val pk.n) 1 = some (1033, 1031) := by
  have h : createKeys (big 1033) (big 1031) (big 7) = .ok (⟨big 1065023, big 303703⟩, ⟨big 1065023, big 7⟩) := by decide +kernel
  refine ⟨_, _, h, ?_⟩
  have := (C151_create_keys _ _ _ _ _ h (by rw [val_big]; norm_num) (by rw [val_big]; norm_num) (by rw [val_big]; decide)
    (by rw [val_big]; decide) (by rw [val_big, val_big]; decide)).1 1 (by rw [val_big, val_big]; decide +kernel)
  rwa [val_big 1033, val_big 1031] at this
example : fermat (1033 * 5) 400 = none ∧ fermat (1033 * 5) 500 = some (1033, 5) := by decide +kernel
example : pollard (61 * 53) 2 5 = 61 :=
  C151_smooth_primes 61 53 2 5 (by norm_num) (by norm_num) (by decide +kernel) (by decide +kernel) (by decide +kernel)
example : shared (61 * 53) (61 * 59) = 61 :=
  (C151_shared_prime 61 53 59 (by norm_num) (by norm_num) (by norm_num) (by decide)).1

end Verif.Props
