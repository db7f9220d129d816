import Verif.Proof.RsaExact

/-! # Key generation for arbitrary arguments: when it panics, and with what -/

namespace Verif.Model.Rsa
open Verif Verif.Model.Big Verif.Spec.Big

/-- A round of the loop in which nothing overflows. -/
theorem inverseLoop_round (fuel r newR : Nat) (t newT : Int) (h0 : newR ≠ 0) (hr : r < 2 ^ 128)
    (h1 : i128 (asI128 (r / newR) * newT) = .ok (asI128 (r / newR) * newT))
    (h2 : i128 (t - asI128 (r / newR) * newT) = .ok (t - asI128 (r / newR) * newT)) :
    inverseLoop (fuel + 1) r newR t newT = inverseLoop fuel newR (r % newR) newT (t - asI128 (r / newR) * newT) := by
  have hqr : r / newR * newR ≤ r := Nat.div_mul_le_self r newR
  have e1 : divU r newR = .ok (r / newR) := by unfold divU; rw [if_neg h0]
  have e2 : mulU128 (r / newR) newR = .ok (r / newR * newR) := by unfold mulU128; rw [if_pos (by omega)]
  have e3 : subU r (r / newR * newR) = .ok (r % newR) := by
    unfold subU; rw [if_pos hqr]; congr 1
    have := Nat.div_add_mod r newR
    rw [Nat.mul_comm] at this
    omega
  rw [inverseLoop, if_pos h0]
  simp only [e1, e2, e3, h1, h2, bind, Except.bind]

/-- The last round of the loop if the coefficient overflows. -/
theorem inverseLoop_overflow (fuel r : Nat) (t newT : Int) (n : Nat) (hn : 2 ^ 127 < n) (hr : r < 2 ^ 127)
    (hsum : t.natAbs * 1 + newT.natAbs * r = n) (hsgn : (t ≤ 0 ∧ 0 ≤ newT) ∨ (0 ≤ t ∧ newT ≤ 0)) :
    inverseLoop (fuel + 1) r 1 t newT = .error .overflow := by
  have e1 : divU r 1 = .ok r := by unfold divU; rw [if_neg (by omega), Nat.div_one]
  have e2 : mulU128 r 1 = .ok r := by unfold mulU128; rw [if_pos (by omega), Nat.mul_one]
  have e3 : subU r r = .ok 0 := by unfold subU; rw [if_pos (Nat.le_refl r), Nat.sub_self]
  have e4 : asI128 r = r := by unfold asI128; rw [if_pos hr]
  have habs := opposite_natAbs t newT r hsgn
  have hc : newT.natAbs * r = r * newT.natAbs := Nat.mul_comm _ _
  rw [inverseLoop, if_pos (by omega)]
  simp only [e1, e2, e3, e4, bind, Except.bind]
  by_cases h : -2 ^ 127 ≤ (r : Int) * newT ∧ (r : Int) * newT < 2 ^ 127
  · have e5 : i128 ((r : Int) * newT) = .ok ((r : Int) * newT) := by unfold i128; rw [if_pos h]
    have e6 : i128 (t - (r : Int) * newT) = .error .overflow := by unfold i128; rw [if_neg (by omega)]
    simp only [e5, e6]
  · have e5 : i128 ((r : Int) * newT) = .error .overflow := by unfold i128; rw [if_neg h]
    simp only [e5]

theorem asI128_small {q : Nat} (h : q < 2 ^ 127) : asI128 q = q := by unfold asI128; rw [if_pos h]

theorem sum_step (r newR n : Nat) (t newT : Int) (hsum : t.natAbs * newR + newT.natAbs * r = n)
    (hsgn : (t ≤ 0 ∧ 0 ≤ newT) ∨ (0 ≤ t ∧ newT ≤ 0)) :
    newT.natAbs * (r % newR) + (t - (r / newR : Nat) * newT).natAbs * newR = n := by
  rw [opposite_natAbs t newT (r / newR) hsgn, ← hsum]
  have h := Nat.div_add_mod r newR
  have : newT.natAbs * r = newT.natAbs * (newR * (r / newR)) + newT.natAbs * (r % newR) := by
    rw [← Nat.mul_add, h]
  rw [this]
  ring

/-- If the modulus is above 2^127 and the loop does not take one of two short ways, it overflows in its last round. -/
theorem inverseLoop_large (n : Nat) (hn : 2 ^ 127 < n) (hn' : n < 2 ^ 128) (fuel r newR : Nat) (t newT : Int)
    (hf : newR < fuel) (hr : r < 2 ^ 128) (hlt : newR < r) (hpos : 0 < newR) (hcop : Nat.Coprime r newR)
    (hsum : t.natAbs * newR + newT.natAbs * r = n) (hsgn : (t ≤ 0 ∧ 0 ≤ newT) ∨ (0 ≤ t ∧ newT ≤ 0))
    (ht : t ≠ 0) (hnt : newT ≠ 0) (h1 : newR = 1 → r < 2 ^ 127) :
    inverseLoop fuel r newR t newT = .error .overflow := by
  induction fuel generalizing r newR t newT with
  | zero => omega
  | succ fuel ih =>
    by_cases hone : newR = 1
    · subst hone
      exact inverseLoop_overflow fuel r t newT n hn (h1 rfl) hsum hsgn
    · have h2 : 2 ≤ newR := by omega
      have hq : r / newR < 2 ^ 127 := by
        rw [Nat.div_lt_iff_lt_mul hpos]
        have : 2 ^ 127 * 2 ≤ 2 ^ 127 * newR := Nat.mul_le_mul_left _ h2
        omega
      have hq1 : 1 ≤ r / newR := by rw [Nat.le_div_iff_mul_le hpos]; omega
      have hsum' := sum_step r newR n t newT hsum hsgn
      have habs := opposite_natAbs t newT (r / newR) hsgn
      have hbig : 2 ≤ (t - (r / newR : Nat) * newT).natAbs := by
        have : 1 * 1 ≤ r / newR * newT.natAbs := Nat.mul_le_mul hq1 (by omega)
        omega
      have hle : (t - (r / newR : Nat) * newT).natAbs * 2 ≤ n := by
        have := Nat.mul_le_mul_left (t - (r / newR : Nat) * newT).natAbs h2
        omega
      have hprod : ((r / newR : Nat) * newT : Int).natAbs ≤ (t - (r / newR : Nat) * newT).natAbs := by
        rw [habs, Int.natAbs_mul, Int.natAbs_natCast]; omega
      have hmod : 0 < r % newR := by
        rcases Nat.eq_zero_or_pos (r % newR) with h | h
        · have hd : newR ∣ Nat.gcd r newR := Nat.dvd_gcd (Nat.dvd_of_mod_eq_zero h) (Nat.dvd_refl _)
          rw [hcop] at hd
          have := Nat.le_of_dvd (by omega) hd
          omega
        · exact h
      have hlt' : r % newR < newR := Nat.mod_lt _ hpos
      rw [inverseLoop_round fuel r newR t newT (by omega) hr
        (by rw [asI128_small hq]; exact i128_ok _ (2 ^ 127 - 1) (by omega) (by omega))
        (by rw [asI128_small hq]; exact i128_ok _ (2 ^ 127 - 1) (by omega) (by omega)), asI128_small hq]
      refine ih newR (r % newR) newT _ (by omega) (by omega) hlt' hmod ?_ hsum' (opposite_sign t newT _ hsgn) hnt (by omega)
        ?_
      · rw [Nat.Coprime, Nat.gcd_comm, ← Nat.gcd_rec, Nat.gcd_comm]; exact hcop
      · intro _
        have := Nat.mul_le_mul_right newR hbig
        omega

/-- `inverseLoop_ok` with a weaker condition on the modulus. -/
theorem inverseLoop_gcd (n : Nat) (g : Nat) (hg : 0 < g) (hn : n / g < 2 ^ 127) (fuel r newR : Nat) (t newT : Int)
    (hf : newR < fuel) (hr' : r < 2 ^ 128) (hnr : newR < 2 ^ 128)
    (hsum : t.natAbs * newR + newT.natAbs * r = n) (hsgn : (t ≤ 0 ∧ 0 ≤ newT) ∨ (0 ≤ t ∧ newT ≤ 0))
    (hgr : Nat.gcd r newR = g) : ∃ t' : Int, inverseLoop fuel r newR t newT = .ok (g, t') := by
  induction fuel generalizing r newR t newT with
  | zero => omega
  | succ fuel ih =>
    by_cases h0 : newR = 0
    · subst h0
      rw [Nat.gcd_zero_right] at hgr
      rw [inverseLoop, if_neg (by simp), hgr]
      exact ⟨t, rfl⟩
    · have hpos : 0 < newR := Nat.pos_of_ne_zero h0
      have hgn : g ≤ newR := Nat.le_of_dvd hpos (hgr ▸ Nat.gcd_dvd_right r newR)
      have hsum' := sum_step r newR n t newT hsum hsgn
      have habs := opposite_natAbs t newT (r / newR) hsgn
      have hle : (t - (r / newR : Nat) * newT).natAbs ≤ n / g := by
        rw [Nat.le_div_iff_mul_le hg]
        have := Nat.mul_le_mul_left (t - (r / newR : Nat) * newT).natAbs hgn
        omega
      have hprod : ((r / newR : Nat) * newT : Int).natAbs ≤ n / g := by
        rw [Int.natAbs_mul, Int.natAbs_natCast]; omega
      have hmul : asI128 (r / newR) * newT = (r / newR : Nat) * newT := by
        by_cases hT : newT = 0
        · rw [hT]; simp
        · have : r / newR ≤ n / g := by
            have h3 : r / newR * 1 ≤ r / newR * newT.natAbs := Nat.mul_le_mul_left _ (by omega)
            omega
          rw [asI128_small (by omega)]
      rw [inverseLoop_round fuel r newR t newT h0 hr'
        (by rw [hmul]; exact i128_ok _ (n / g) hn hprod) (by rw [hmul]; exact i128_ok _ (n / g) hn hle), hmul]
      have hlt : r % newR < newR := Nat.mod_lt _ hpos
      exact ih newR (r % newR) newT _ (by omega) hnr (by omega) hsum' (opposite_sign t newT _ hsgn)
        (by rw [Nat.gcd_comm, ← Nat.gcd_rec, Nat.gcd_comm]; exact hgr)

/-- Without a common divisor equal to one there is no inverse, whatever the modulus. -/
theorem inverse_none (a n : Nat) (ha : a < 2 ^ 128) (hn : n < 2 ^ 128) (hg : Nat.gcd a n ≠ 1) : inverse a n = .ok none := by
  by_cases h0 : Nat.gcd a n = 0
  · obtain ⟨rfl, rfl⟩ := Nat.gcd_eq_zero_iff.1 h0
    rfl
  · obtain ⟨t', h⟩ := inverseLoop_gcd n (Nat.gcd a n) (by omega)
      (by rw [Nat.div_lt_iff_lt_mul (by omega)]; have : 2 ^ 127 * 2 ≤ 2 ^ 127 * Nat.gcd a n := Nat.mul_le_mul_left _ (by omega)
          omega) (a + 1) n a 0 1 (by omega) hn ha (by simp) (Or.inl ⟨by omega, by omega⟩) (Nat.gcd_comm n a)
    unfold inverse
    simp only [h, bind, Except.bind]
    rw [if_pos hg]
    rfl

/-- The first rounds: for a modulus above 2^127 the loop goes on with the remainder. -/
theorem inverseLoop_start (a n : Nat) (ha : a < 2 ^ 128) (hn : 2 ^ 127 < n) (hn' : n < 2 ^ 128) (hne : a ≠ n) :
    ∃ fuel, a % n < fuel ∧ inverseLoop (a + 1) n a 0 1 = inverseLoop fuel n (a % n) 0 1 := by
  by_cases h : a < n
  · exact ⟨a + 1, by rw [Nat.mod_eq_of_lt h]; omega, by rw [Nat.mod_eq_of_lt h]⟩
  · have hq0 : n / a = 0 := Nat.div_eq_of_lt (by omega)
    have hm0 : n % a = n := Nat.mod_eq_of_lt (by omega)
    have hq1 : a / n = 1 := by
      apply Nat.div_eq_of_lt_le <;> omega
    obtain ⟨b, rfl⟩ : ∃ b, a = b + 1 := ⟨a - 1, by omega⟩
    refine ⟨b, ?_, ?_⟩
    · have := Nat.mod_lt (b + 1) (show n > 0 by omega)
      omega
    · rw [inverseLoop_round (b + 1) n (b + 1) 0 1 (by omega) hn' (by rw [hq0]; decide) (by rw [hq0]; decide), hq0, hm0,
        inverseLoop_round b (b + 1) n 1 _ (by omega) ha (by rw [hq1]; decide) (by rw [hq1]; decide), hq1]
      rfl

/-- `inverse` for a modulus above 2^127: only two residues have an inverse that can be computed. -/
theorem inverse_large (a n : Nat) (ha : a < 2 ^ 128) (hn : 2 ^ 127 < n) (hn' : n < 2 ^ 128) (hg : Nat.gcd a n = 1) :
    inverse a n = if a % n = 1 then .ok (some 1)
      else if a % n = n - 1 ∧ n ≠ 2 ^ 127 + 1 then .ok (some (n - 1)) else .error .overflow := by
  have hne : a ≠ n := by rintro rfl; rw [Nat.gcd_self] at hg; omega
  obtain ⟨fuel, hf, hs⟩ := inverseLoop_start a n ha hn hn' hne
  have hgb : Nat.gcd n (a % n) = 1 := by rw [Nat.gcd_comm, ← Nat.gcd_rec, Nat.gcd_comm]; exact hg
  have hbn : a % n < n := Nat.mod_lt _ (by omega)
  unfold inverse
  rw [hs]
  generalize a % n = b at *
  have hb0 : b ≠ 0 := by rintro rfl; rw [Nat.gcd_zero_right] at hgb; omega
  have hasn : asI128 n = n - 2 ^ 128 := by unfold asI128; rw [if_neg (by omega)]
  obtain ⟨k, rfl⟩ : ∃ k, fuel = k + 2 := ⟨fuel - 2, by omega⟩
  by_cases h1 : b = 1
  · subst h1
    rw [if_pos rfl, inverseLoop_round (k + 1) n 1 0 1 (by omega) hn'
      (by rw [Nat.div_one, hasn]; unfold i128; rw [if_pos (by omega)])
      (by rw [Nat.div_one, hasn]; unfold i128; rw [if_pos (by omega)]), Nat.mod_one, inverseLoop, if_neg (by simp)]
    rfl
  rw [if_neg h1]
  have hqb : n / b < 2 ^ 127 := by
    rw [Nat.div_lt_iff_lt_mul (by omega)]
    have : 2 ^ 127 * 2 ≤ 2 ^ 127 * b := Nat.mul_le_mul_left _ (by omega)
    omega
  have hround : inverseLoop (k + 2) n b 0 1 = inverseLoop (k + 1) b (n % b) 1 (0 - (n / b : Nat) * 1) := by
    have small : ∀ x : Nat, x < 2 ^ 127 → i128 ((x : Int) * 1) = .ok ((x : Int) * 1) ∧
        i128 (0 - (x : Int) * 1) = .ok (0 - (x : Int) * 1) := fun x hx =>
      ⟨i128_ok _ (2 ^ 127 - 1) (by omega) (by omega), i128_ok _ (2 ^ 127 - 1) (by omega) (by omega)⟩
    rw [inverseLoop_round (k + 1) n b 0 1 hb0 hn' (by rw [asI128_small hqb]; exact (small _ hqb).1)
      (by rw [asI128_small hqb]; exact (small _ hqb).2), asI128_small hqb]
  rw [hround]
  have hdiv := Nat.div_add_mod n b
  by_cases hm1 : b = n - 1
  · have hq : n / b = 1 := by apply Nat.div_eq_of_lt_le <;> omega
    have hm : n % b = 1 := by rw [hq] at hdiv; omega
    rw [hq, hm]
    have hasb : asI128 b = b - 2 ^ 128 := by unfold asI128; rw [if_neg (by omega)]
    obtain ⟨j, rfl⟩ : ∃ j, k = j + 1 := ⟨k - 1, by omega⟩
    by_cases hx : n = 2 ^ 127 + 1
    · rw [if_neg (by omega)]
      have e1 : divU b 1 = .ok b := by unfold divU; rw [if_neg (by omega), Nat.div_one]
      have e2 : mulU128 b 1 = .ok b := by unfold mulU128; rw [if_pos (by omega), Nat.mul_one]
      have e3 : subU b b = .ok 0 := by unfold subU; rw [if_pos (Nat.le_refl b), Nat.sub_self]
      have e4 : i128 ((b - 2 ^ 128) * (0 - (1 : Nat) * 1)) = .error .overflow := by
        unfold i128; rw [if_neg (by omega)]
      rw [inverseLoop, if_pos (by omega)]
      simp only [e1, e2, e3, hasb, e4, bind, Except.bind]
    · rw [if_pos ⟨hm1, hx⟩, inverseLoop_round (j + 1) b 1 1 _ (by omega) (by omega)
        (by rw [Nat.div_one, hasb]; unfold i128; rw [if_pos (by omega)])
        (by rw [Nat.div_one, hasb]; unfold i128; rw [if_pos (by omega)]), Nat.mod_one, inverseLoop, if_neg (by simp)]
      have e5 : i128 (0 - (1 : Nat) * 1 + asI128 n) = .ok (n - 1 - 2 ^ 128) := by
        rw [hasn]; unfold i128; rw [if_pos (by omega)]; congr 1; omega
      have e6 : asU128 (n - 1 - 2 ^ 128) = n - 1 := by
        unfold asU128
        rw [show (n : Int) - 1 - 2 ^ 128 = (n - 1) + 2 ^ 128 * (-1) by ring, Int.add_mul_emod_self_left,
          Int.emod_eq_of_lt (by omega) (by omega)]
        omega
      simp only [bind, Except.bind, ne_eq, not_true_eq_false, if_false]
      rw [if_pos (by omega), e5]
      simp only [e6, pure, Except.pure]
  · rw [if_neg (by omega)]
    have hpos : 0 < n % b := by
      rcases Nat.eq_zero_or_pos (n % b) with h | h
      · have hd : b ∣ Nat.gcd n b := Nat.dvd_gcd (Nat.dvd_of_mod_eq_zero h) (Nat.dvd_refl _)
        rw [hgb] at hd
        have := Nat.le_of_dvd (by omega) hd
        omega
      · exact h
    have hq1 : 1 ≤ n / b := by rw [Nat.le_div_iff_mul_le (by omega)]; omega
    have hlt := Nat.mod_lt n (show b > 0 by omega)
    rw [inverseLoop_large n hn hn' (k + 1) b (n % b) 1 (0 - (n / b : Nat) * 1) (by omega) (by omega) hlt hpos
      (by rw [Nat.Coprime, Nat.gcd_comm, ← Nat.gcd_rec, Nat.gcd_comm]; exact hgb)
      (by rw [show (0 - (n / b : Nat) * 1 : Int).natAbs = n / b by omega, Nat.mul_comm (n / b)]; simp; omega)
      (Or.inr ⟨by omega, by omega⟩) (by omega) (by omega) ?_]
    · rfl
    · intro hone
      by_contra hbig
      have : n / b < 2 := by
        rw [Nat.div_lt_iff_lt_mul (by omega)]; omega
      have hq : n / b = 1 := by omega
      rw [hq, hone] at hdiv
      omega

theorem inverse_mod_one (a : Nat) (ha : a < 2 ^ 128) : inverse a 1 = .ok (some (if a = 1 then 1 else 0)) := by
  match a, ha with
  | 0, _ => rfl
  | 1, _ => rfl
  | b + 2, ha =>
    have hq : 1 / (b + 2) = 0 := Nat.div_eq_of_lt (by omega)
    have hm : 1 % (b + 2) = 1 := Nat.mod_eq_of_lt (by omega)
    unfold inverse
    rw [inverseLoop_round (b + 2) 1 (b + 2) 0 1 (by omega) (by omega) (by rw [hq]; decide) (by rw [hq]; decide), hq, hm,
      show (0 : Int) - asI128 0 * 1 = 0 from rfl,
      inverseLoop_round (b + 1) (b + 2) 1 1 0 (by omega) ha (by rw [mul_zero]; decide) (by rw [mul_zero]; decide),
      Nat.mod_one, inverseLoop, if_neg (by simp)]
    rw [if_neg (by omega)]
    rfl

theorem inverse_mod_zero : inverse 1 0 = .ok (some 1) := by decide

/-- 2^127 does not occur as the modulus of the exponents. -/
theorem lcm_ne (p q : Nat) (hpq : p * q < 2 ^ 128) : Nat.lcm (p - 1) (q - 1) ≠ 2 ^ 127 := by
  intro h
  obtain ⟨a, ha, hpa⟩ := (Nat.dvd_prime_pow Nat.prime_two).1 (h ▸ Nat.dvd_lcm_left (p - 1) (q - 1))
  obtain ⟨b, hb, hqb⟩ := (Nat.dvd_prime_pow Nat.prime_two).1 (h ▸ Nat.dvd_lcm_right (p - 1) (q - 1))
  have hp1 : 1 ≤ p - 1 := by rw [hpa]; exact Nat.one_le_two_pow
  have hq1 : 1 ≤ q - 1 := by rw [hqb]; exact Nat.one_le_two_pow
  have key : ∀ x y : Nat, x - 1 = 2 ^ 127 → 1 ≤ y - 1 → x * y < 2 ^ 128 → False := by
    intro x y hx hy hxy
    have : (2 ^ 127 + 1) * 2 ≤ x * y := Nat.mul_le_mul (by omega) (by omega)
    omega
  rcases Nat.lt_or_ge a 127 with h1 | h1
  · rcases Nat.lt_or_ge b 127 with h2 | h2
    · have hd : Nat.lcm (p - 1) (q - 1) ∣ 2 ^ 126 :=
        Nat.lcm_dvd (hpa ▸ Nat.pow_dvd_pow 2 (by omega)) (hqb ▸ Nat.pow_dvd_pow 2 (by omega))
      rw [h] at hd
      have := Nat.le_of_dvd (by norm_num) hd
      norm_num at this
    · exact key q p (by rw [hqb, show b = 127 by omega]) hp1 (by rw [Nat.mul_comm]; exact hpq)
  · exact key p q (by rw [hpa, show a = 127 by omega]) hq1 hpq

end Verif.Model.Rsa
