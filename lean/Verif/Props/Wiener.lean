import Verif.Spec.Wiener
import Verif.Props.RsaFactor
import Mathlib.NumberTheory.DiophantineApproximation.Basic

/-! # C140: small private exponents are found from the public key -/

namespace Verif.Props
open Verif Verif.Model.Big Verif.Model.Rsa Verif.Spec.Big
open _root_.Verif.Spec.Wiener (convergent primesFrom attempt attack)

/-! ## Proofs -/

theorem convergent_real (k a b : Nat) (hb : 0 < b) :
    0 < (convergent k a b).2 ∧ Nat.Coprime (convergent k a b).1 (convergent k a b).2 ∧ (b ≤ a → 0 < (convergent k a b).1) ∧
      Real.convergent ((a : ℝ) / b) k = ((convergent k a b).1 : ℚ) / (convergent k a b).2 := by
  have hsplit : ∀ a b : Nat, (a : ℝ) = b * ((a / b : Nat) : ℝ) + ((a % b : Nat) : ℝ) := fun a b => by
    rw [← Nat.cast_mul, ← Nat.cast_add, Nat.div_add_mod]
  have hfloor : ∀ a b : Nat, 0 < b → ⌊(a : ℝ) / b⌋ = ((a / b : Nat) : ℤ) := fun a b hb => by
    have hb' : (0 : ℝ) < b := by exact_mod_cast hb
    have hm : ((a % b : Nat) : ℝ) < b := by exact_mod_cast Nat.mod_lt a hb
    have hm0 : (0 : ℝ) ≤ ((a % b : Nat) : ℝ) := Nat.cast_nonneg _
    rw [Int.floor_eq_iff, Int.cast_natCast, le_div_iff₀ hb', div_lt_iff₀ hb']
    have := hsplit a b
    constructor <;> nlinarith
  induction k generalizing a b with
  | zero =>
    simp only [convergent, Real.convergent_zero, hfloor a b hb]
    exact ⟨Nat.one_pos, Nat.coprime_one_right _, fun h => Nat.div_pos h hb, by rw [Int.cast_natCast, Nat.cast_one, div_one]⟩
  | succ k ih =>
    have hb' : (b : ℝ) ≠ 0 := by positivity
    have hfr : Int.fract ((a : ℝ) / b) = ((a % b : Nat) : ℝ) / b := by
      rw [Int.fract, hfloor a b hb, Int.cast_natCast, eq_div_iff hb', sub_mul, div_mul_cancel₀ _ hb']
      have := hsplit a b
      linarith
    rw [Real.convergent_succ, hfloor a b hb, hfr, inv_div, Int.cast_natCast]
    by_cases h0 : a % b = 0
    · rw [h0]
      simp only [convergent, h0, if_true, Nat.cast_zero, div_zero, Real.convergent_of_zero, inv_zero, add_zero]
      exact ⟨Nat.one_pos, Nat.coprime_one_right _, fun h => Nat.div_pos h hb, by rw [Nat.cast_one, div_one]⟩
    · have hr : 0 < a % b := Nat.pos_of_ne_zero h0
      obtain ⟨i1, i2, i3, i4⟩ := ih b (a % b) hr
      have i5 := i3 (Nat.mod_lt _ hb).le
      simp only [convergent, if_neg h0]
      refine ⟨i5, ?_, fun _ => by omega, ?_⟩
      · rw [Nat.coprime_mul_right_add_left]
        exact i2.symm
      · rw [i4, inv_div, Nat.cast_add, Nat.cast_mul]
        have : ((convergent k b (a % b)).1 : ℚ) ≠ 0 := by positivity
        field_simp

theorem convergent_early (j a b : Nat) (hb : 0 < b) : ∃ k, k ≤ 2 * b.size ∧ convergent k a b = convergent j a b := by
  induction b using Nat.strongRecOn generalizing a j with
  | _ b ih =>
    have hs : 1 ≤ b.size := Nat.size_pos.2 hb
    have const : ∀ a b j, a % b = 0 → convergent j a b = (a / b, 1) := by
      intro a b j h
      cases j with
      | zero => rfl
      | succ j => simp only [convergent, h, if_true]
    by_cases h0 : a % b = 0
    · exact ⟨0, by omega, by rw [const _ _ _ h0, const _ _ _ h0]⟩
    cases j with
    | zero => exact ⟨0, by omega, rfl⟩
    | succ j =>
      have hr : 0 < a % b := Nat.pos_of_ne_zero h0
      by_cases h1 : b % (a % b) = 0
      · refine ⟨1, by omega, ?_⟩
        simp only [convergent, if_neg h0, const _ _ _ h1]
      cases j with
      | zero => exact ⟨1, by omega, rfl⟩
      | succ j =>
        have hlt : a % b < b := Nat.mod_lt _ hb
        have hr2 : b % (a % b) < a % b := Nat.mod_lt _ hr
        obtain ⟨k, hk, he⟩ := ih (b % (a % b)) (by omega) j (a % b) (Nat.pos_of_ne_zero h1)
        have hhalf : 2 * (b % (a % b)) < b := by
          have h3 := Nat.div_add_mod b (a % b)
          have h4 : 1 ≤ b / (a % b) := Nat.div_pos hlt.le hr
          have h5 : a % b ≤ (a % b) * (b / (a % b)) := Nat.le_mul_of_pos_right _ h4
          omega
        have hsz : (b % (a % b)).size + 1 ≤ b.size := by
          have := Nat.lt_size_self b
          have : (b % (a % b)).size ≤ b.size - 1 := by
            rw [Nat.size_le]
            have : 2 ^ b.size = 2 * 2 ^ (b.size - 1) := by rw [← Nat.pow_succ']; congr 1; omega
            omega
          omega
        refine ⟨k + 2, by omega, ?_⟩
        simp only [convergent, if_neg h0, if_neg h1, he]

theorem primesFrom_sound {n phi x y : Nat} (h : primesFrom n phi = some (x, y)) : x * y = n ∧ 1 < y ∧ y ≤ x := by
  unfold primesFrom at h
  simp only at h
  split at h
  · rename_i hc
    simp only [Option.some.injEq, Prod.mk.injEq] at h
    rw [← h.1, ← h.2]
    exact hc
  · cases h

theorem primesFrom_complete {p q : Nat} (hq : 1 < q) (hpq : q ≤ p) :
    primesFrom (p * q) ((p - 1) * (q - 1)) = some (p, q) := by
  have hsum : p * q + 1 - (p - 1) * (q - 1) = p + q := by
    obtain ⟨p', rfl⟩ : ∃ p', p = p' + 1 := ⟨p - 1, by omega⟩
    obtain ⟨q', rfl⟩ : ∃ q', q = q' + 1 := ⟨q - 1, by omega⟩
    simp only [Nat.add_sub_cancel]
    have : (p' + 1) * (q' + 1) = p' * q' + p' + q' + 1 := by ring
    omega
  have hroot : Nat.sqrt ((p + q) * (p + q) - 4 * (p * q)) = p - q := by
    have : (p + q) * (p + q) - 4 * (p * q) = (p - q) * (p - q) := by
      obtain ⟨t, rfl⟩ := Nat.exists_eq_add_of_le hpq
      have e : (q + t + q) * (q + t + q) = 4 * ((q + t) * q) + t * t := by ring
      rw [e, Nat.add_sub_cancel_left, Nat.add_sub_cancel_left]
    rw [this, Nat.sqrt_eq]
  unfold primesFrom
  simp only [hsum, hroot]
  have h1 : (p + q + (p - q)) / 2 = p := by omega
  have h2 : (p + q - (p - q)) / 2 = q := by omega
  rw [h1, h2, if_pos ⟨rfl, hq, hpq⟩]

/-- C140: what the method returns are two factors of the modulus. -/
theorem C140_sound (n e x y : Nat) (h : attack n e = some (x, y)) : x * y = n ∧ 1 < y ∧ y ≤ x := by
  unfold attack at h
  obtain ⟨k, _, hk⟩ := List.exists_of_findSome?_eq_some h
  unfold attempt at hk
  simp only at hk
  split at hk
  · cases hk
  · exact primesFrom_sound hk

theorem attack_finds {p q e K D g : Nat} (hp : p.Prime) (hq : q.Prime) (hpq : q < p) (hD : 0 < D) (hK : 0 < K)
    (hco : Nat.Coprime K D) (heq : e * D = g + K * ((p - 1) * (q - 1))) (hg : 1 ≤ g) (hgK : g ≤ K)
    (hsmall : 2 * (K * D) * (p + q) ≤ p * q) : attack (p * q) e = some (p, q) := by
  have hq1 := hq.one_lt
  have hn : 0 < p * q := Nat.mul_pos hp.pos hq.pos
  have hphi : p * q + 1 = (p - 1) * (q - 1) + (p + q) := by
    obtain ⟨p', rfl⟩ : ∃ p', p = p' + 1 := ⟨p - 1, by omega⟩
    obtain ⟨q', rfl⟩ : ∃ q', q = q' + 1 := ⟨q - 1, by omega⟩
    simp only [Nat.add_sub_cancel]
    ring
  -- the fraction is close to e / n
  have hclose : |((e : ℝ) / (p * q : Nat)) - ((K : ℚ) / (D : ℚ) : ℚ)| < 1 / (2 * (((K : ℚ) / (D : ℚ)).den : ℝ) ^ 2) := by
    have hden : ((K : ℚ) / (D : ℚ)).den = D := by
      have := Rat.den_div_eq_of_coprime (a := (K : ℤ)) (b := (D : ℤ)) (by exact_mod_cast hD) (by simpa using hco)
      rw [Int.cast_natCast, Int.cast_natCast] at this
      exact Int.ofNat.inj this
    rw [hden]
    have hDr : (0 : ℝ) < D := by exact_mod_cast hD
    have hnr : (0 : ℝ) < ((p * q : Nat) : ℝ) := by exact_mod_cast hn
    have e1 : ((e : ℝ) / (p * q : Nat)) - ((K : ℚ) / (D : ℚ) : ℚ) =
        -((K : ℝ) * (p + q - 1) - g) / ((p * q : Nat) * D) := by
      have h1 : (e : ℝ) * D = g + K * ((p * q : Nat) + 1 - (p + q)) := by
        have : ((e * D : Nat) : ℝ) = ((g + K * ((p - 1) * (q - 1)) : Nat) : ℝ) := by rw [heq]
        have h2 : (((p - 1) * (q - 1) : Nat) : ℝ) = (p * q : Nat) + 1 - (p + q) := by
          have : ((p * q + 1 : Nat) : ℝ) = (((p - 1) * (q - 1) + (p + q) : Nat) : ℝ) := by rw [hphi]
          rw [Nat.cast_add, Nat.cast_add _ (p + q)] at this
          push_cast at this ⊢
          linarith
        rw [Nat.cast_add, Nat.cast_mul, Nat.cast_mul K, h2] at this
        exact this
      rw [Rat.cast_div, Rat.cast_natCast, Rat.cast_natCast, div_sub_div _ _ hnr.ne' hDr.ne']
      congr 1
      linear_combination h1
    rw [e1, abs_div, abs_neg, abs_of_pos (by positivity : (0 : ℝ) < (p * q : Nat) * D)]
    have hgK' : (g : ℝ) ≤ K := by exact_mod_cast hgK
    have hg' : (1 : ℝ) ≤ g := by exact_mod_cast hg
    have hK' : (1 : ℝ) ≤ K := by exact_mod_cast hK
    have hpr : (2 : ℝ) ≤ p := by exact_mod_cast hp.two_le
    have hqr : (2 : ℝ) ≤ q := by exact_mod_cast hq.two_le
    have hnn : 0 ≤ (K : ℝ) * (p + q - 1) - g := by nlinarith
    rw [abs_of_nonneg hnn, div_lt_div_iff₀ (by positivity) (by positivity)]
    have hs : (2 : ℝ) * (K * D) * (p + q) ≤ (p * q : Nat) := by exact_mod_cast hsmall
    have : ((K : ℝ) * (p + q - 1) - g) < K * (p + q) := by nlinarith
    have h6 := mul_lt_mul_of_pos_right this (by positivity : (0 : ℝ) < 2 * (D : ℝ) ^ 2)
    have h7 := mul_le_mul_of_nonneg_right hs hDr.le
    have h8 : (K : ℝ) * (p + q) * (2 * (D : ℝ) ^ 2) = 2 * (K * D) * (p + q) * D := by ring
    linarith
  obtain ⟨j, hj⟩ := Real.exists_rat_eq_convergent hclose
  obtain ⟨k, hk, he⟩ := convergent_early j e (p * q) hn
  obtain ⟨c1, c2, -, c3⟩ := convergent_real j e (p * q) hn
  rw [c3] at hj
  have hconv : convergent k e (p * q) = (K, D) := by
    rw [he]
    have h1 := Rat.div_int_inj (a := (K : ℤ)) (b := (D : ℤ)) (c := ((convergent j e (p * q)).1 : ℤ))
      (d := ((convergent j e (p * q)).2 : ℤ)) (by exact_mod_cast hD) (by exact_mod_cast c1) (by simpa using hco)
      (by simpa using c2) (by simpa only [Int.cast_natCast] using hj)
    apply Prod.ext
    · exact_mod_cast h1.1.symm
    · exact_mod_cast h1.2.symm
  have hatt : attempt (p * q) e k = some (p, q) := by
    unfold attempt
    simp only [hconv, if_neg hK.ne']
    have : (e * D - 1) / K = (p - 1) * (q - 1) := by
      rw [heq, show g + K * ((p - 1) * (q - 1)) - 1 = (g - 1) + K * ((p - 1) * (q - 1)) by omega,
        Nat.add_mul_div_left _ _ hK, Nat.div_eq_of_lt (by omega), Nat.zero_add]
    rw [this]
    exact primesFrom_complete hq1 hpq.le
  cases hres : attack (p * q) e with
  | none =>
    exfalso
    unfold attack at hres
    rw [List.findSome?_eq_none_iff] at hres
    have := hres k (by rw [List.mem_range]; omega)
    rw [hatt] at this
    cases this
  | some xy =>
    obtain ⟨x, y⟩ := xy
    obtain ⟨s1, s2, s3⟩ := C140_sound _ _ _ _ hres
    have hx1 : 1 < x := by omega
    have hxlt : x < p * q := by rw [← s1]; exact lt_mul_of_one_lt_right (by omega) s2
    have hx : x = p ∨ x = q := factor_pq hp hq ⟨y, s1.symm⟩ hx1 hxlt
    rcases hx with rfl | rfl
    · have : y = q := Nat.eq_of_mul_eq_mul_left hp.pos s1
      rw [this]
    · exfalso
      have : y = p := Nat.eq_of_mul_eq_mul_left hq.pos (by rw [s1, Nat.mul_comm])
      omega

/-! ## The property -/

/-- C140: two primes are found from their product and the public exponent alone if the private exponent is small: if
`2 (d g)^2 (p + q)` is at most the modulus, with the greatest common divisor `g` of `p - 1` and `q - 1`. -/
theorem C140_small_exponent (p q e d : Nat) (hp : p.Prime) (hq : q.Prime) (hpq : q < p)
    (hinv : e * d ≡ 1 [MOD Nat.lcm (p - 1) (q - 1)]) (he : e ≤ (p - 1) * (q - 1)) (hed : (p - 1) * (q - 1) < e * d)
    (hsmall : 2 * (d * Nat.gcd (p - 1) (q - 1)) ^ 2 * (p + q) ≤ p * q) :
    attack (p * q) e = some (p, q) := by
  have hp1 : 0 < p - 1 := by have := hp.two_le; omega
  have hq1 : 0 < q - 1 := by have := hq.two_le; omega
  set l := Nat.lcm (p - 1) (q - 1) with hl
  set G := Nat.gcd (p - 1) (q - 1) with hG
  have hGl : G * l = (p - 1) * (q - 1) := Nat.gcd_mul_lcm _ _
  have hGpos : 0 < G := Nat.gcd_pos_of_pos_left _ hp1
  have hlpos : 0 < l := Nat.lcm_pos hp1 hq1
  have hed1 : 1 ≤ e * d := by omega
  obtain ⟨k, hk⟩ : l ∣ e * d - 1 := (Nat.modEq_iff_dvd' hed1).1 hinv.symm
  have hed' : e * d = 1 + l * k := by omega
  have hkG : G ≤ k := by
    have : l * G ≤ l * k := by
      rw [← hk, Nat.mul_comm l G, hGl]; omega
    exact Nat.le_of_mul_le_mul_left this hlpos
  have hkpos : 0 < k := by omega
  set c := Nat.gcd k G with hc
  have hcpos : 0 < c := Nat.gcd_pos_of_pos_left _ hkpos
  obtain ⟨K, hK⟩ : c ∣ k := Nat.gcd_dvd_left _ _
  obtain ⟨g, hg⟩ : c ∣ G := Nat.gcd_dvd_right _ _
  have hKpos : 0 < K := Nat.pos_of_ne_zero (by rintro rfl; omega)
  have hgpos : 0 < g := Nat.pos_of_ne_zero (by rintro rfl; omega)
  have hdpos : 0 < d := Nat.pos_of_ne_zero (by rintro rfl; omega)
  have hcog : Nat.Coprime K g := by
    have := Nat.coprime_div_gcd_div_gcd (m := k) (n := G) hcpos
    rw [← hc] at this
    rwa [hK, hg, Nat.mul_div_cancel_left _ hcpos, Nat.mul_div_cancel_left _ hcpos] at this
  have hcod : Nat.Coprime K d := by
    have h1 : Nat.gcd K d ∣ e * d := (Nat.gcd_dvd_right _ _).mul_left _
    have h2 : Nat.gcd K d ∣ l * k := by rw [hK]; exact ((Nat.gcd_dvd_left _ _).mul_left _).mul_left _
    rw [hed'] at h1
    exact Nat.dvd_one.1 ((Nat.dvd_add_left h2).1 h1)
  have hgK : g ≤ K := by
    have : c * g ≤ c * K := by rw [← hK, ← hg]; exact hkG
    exact Nat.le_of_mul_le_mul_left this hcpos
  have heq : e * (d * g) = g + K * ((p - 1) * (q - 1)) := by
    rw [← hGl, ← Nat.mul_assoc, hed', hK, hg]; ring
  have hKD : K ≤ d * g := by
    have h1 : K * ((p - 1) * (q - 1)) ≤ (d * g) * ((p - 1) * (q - 1)) := by
      calc K * ((p - 1) * (q - 1)) ≤ e * (d * g) := by omega
        _ ≤ (p - 1) * (q - 1) * (d * g) := Nat.mul_le_mul_right _ he
        _ = _ := Nat.mul_comm _ _
    exact Nat.le_of_mul_le_mul_right h1 (Nat.mul_pos hp1 hq1)
  have hDG : d * g ≤ d * G := Nat.mul_le_mul_left _ (by rw [hg]; exact Nat.le_mul_of_pos_left _ hcpos)
  refine attack_finds hp hq hpq (Nat.mul_pos hdpos hgpos) hKpos (Nat.Coprime.mul_right hcod hcog) heq hgpos hgK ?_
  refine le_trans (Nat.mul_le_mul_right _ (Nat.mul_le_mul_left 2 ?_)) hsmall
  calc K * (d * g) ≤ (d * g) * (d * g) := Nat.mul_le_mul_right _ hKD
    _ ≤ (d * G) * (d * G) := Nat.mul_le_mul hDG hDG
    _ = _ := by ring

/-- C140 for primes of about the same size: it is enough that `20 (d g)^4` is at most the modulus. -/
theorem C140_fourth_root (p q e d : Nat) (hp : p.Prime) (hq : q.Prime) (hpq : q < p) (hp2 : p < 2 * q)
    (hinv : e * d ≡ 1 [MOD Nat.lcm (p - 1) (q - 1)]) (he : e ≤ (p - 1) * (q - 1)) (hed : (p - 1) * (q - 1) < e * d)
    (hsmall : 20 * (d * Nat.gcd (p - 1) (q - 1)) ^ 4 ≤ p * q) :
    attack (p * q) e = some (p, q) := by
  refine C140_small_exponent p q e d hp hq hpq hinv he hed ?_
  generalize d * Nat.gcd (p - 1) (q - 1) = X at hsmall
  have h5 : (p + q) ^ 2 ≤ 5 * (p * q) := by nlinarith
  have : (2 * X ^ 2 * (p + q)) ^ 2 ≤ (p * q) ^ 2 := by
    calc (2 * X ^ 2 * (p + q)) ^ 2 = 4 * X ^ 4 * (p + q) ^ 2 := by ring
      _ ≤ 4 * X ^ 4 * (5 * (p * q)) := Nat.mul_le_mul_left _ h5
      _ = (20 * X ^ 4) * (p * q) := by ring
      _ ≤ (p * q) * (p * q) := Nat.mul_le_mul_right _ hsmall
      _ = _ := by ring
  exact (Nat.pow_le_pow_iff_left (by decide)).1 this

/-- C140 for `create_keys`: such keys are made without complaint, and the method finds the numbers they were made from. -/
theorem C140_create_keys (p q e : BigUint) (sk : PrivateKey) (pk : PublicKey) (hk : createKeys p q e = .ok (sk, pk))
    (hp : (val p).Prime) (hq : (val q).Prime) (hpq : val q < val p) (he : val e ≤ (val p - 1) * (val q - 1))
    (hed : (val p - 1) * (val q - 1) < val e * val sk.d)
    (hsmall : 2 * (val sk.d * Nat.gcd (val p - 1) (val q - 1)) ^ 2 * (val p + val q) ≤ val p * val q) :
    attack (val pk.n) (val pk.e) = some (val p, val q) := by
  obtain ⟨g1, g2, g3, hinv⟩ := C92_keys_sound p q e sk pk hk
  rw [g3] at hinv
  rw [← g2, g1, g3]
  exact C140_small_exponent _ _ _ _ hp hq hpq hinv he hed hsmall

/-! ## An example -/

/-- The keys made from 1033, 1019 and 450247, with the private exponent 7. -/
example : attack (1033 * 1019) 450247 = some (1033, 1019) :=
  C140_small_exponent 1033 1019 450247 7 (by norm_num) (by norm_num) (by norm_num) (by decide +kernel) (by norm_num)
    (by norm_num) (by decide +kernel)
/-- The method itself, run: it finds the same, and nothing for the textbook key (61, 53, 17), where `d` is 413. -/
example : attack 1052627 450247 = some (1033, 1019) ∧ attack 3233 17 = none := by decide +kernel
example : 1033 * 1019 = 1052627 ∧ 1 < 1019 ∧ 1019 ≤ 1033 := C140_sound 1052627 450247 1033 1019 (by decide +kernel)
example : attack (1033 * 1019) 315173 = some (1033, 1019) :=
  C140_fourth_root 1033 1019 315173 5 (by norm_num) (by norm_num) (by norm_num) (by norm_num) (by decide +kernel) (by norm_num)
    (by norm_num) (by decide +kernel)
example : ∃ sk pk, createKeys (big 1033) (big 1019) (big 450247) = .ok (sk, pk) ∧ val sk.d = 7 ∧
    attack (val pk.n) (val pk.e) = some (1033, 1019) := by
  obtain ⟨sk, pk, hk, hd⟩ : ∃ sk pk, createKeys (big 1033) (big 1019) (big 450247) = .ok (sk, pk) ∧ val sk.d = 7 :=
    ⟨⟨⟨[0xd3#8, 0x0f#8, 0x10#8]⟩, ⟨[7#8]⟩⟩, ⟨⟨[0xd3#8, 0x0f#8, 0x10#8]⟩, ⟨[0xc7#8, 0xde#8, 0x06#8]⟩⟩, by decide +kernel,
      by decide +kernel⟩
  refine ⟨sk, pk, hk, hd, ?_⟩
  have := C140_create_keys (big 1033) (big 1019) (big 450247) sk pk hk
  simp only [val_big, hd] at this
  exact this (by norm_num) (by norm_num) (by norm_num) (by norm_num) (by norm_num) (by decide +kernel)

end Verif.Props
