import Mathlib.Analysis.SpecialFunctions.Complex.Arctan
import Mathlib.Analysis.SpecialFunctions.Trigonometric.Arctan
import Mathlib.Analysis.SpecificLimits.Normed
import Mathlib.Algebra.Order.Floor.Semifield
import Mathlib.Tactic.NormNum
import Mathlib.Tactic.Ring
import Mathlib.Tactic.Linarith

/-! # 722 decimal digits of π

By Machin's formula `π / 4 = 4 arctan (1/5) - arctan (1/239)` and the alternating series of `arctan`, in integer
arithmetic. -/

namespace Verif.PiDigits
open Real Finset

/-- Terms of the series. -/
noncomputable def f (m : ℕ) (n : ℕ) : ℝ := (m : ℝ)⁻¹ ^ (2 * n + 1) / (2 * n + 1 : ℕ)

theorem f_antitone (m : ℕ) (hm : 2 ≤ m) : Antitone (f m) := by
  refine antitone_nat_of_succ_le fun n => ?_
  unfold f
  have hm' : (2 : ℝ) ≤ m := by exact_mod_cast hm
  have h1 : (m : ℝ)⁻¹ ≤ 1 := inv_le_one_of_one_le₀ (by linarith)
  have h0 : 0 ≤ (m : ℝ)⁻¹ := by positivity
  have hp : (m : ℝ)⁻¹ ^ (2 * (n + 1) + 1) ≤ (m : ℝ)⁻¹ ^ (2 * n + 1) := pow_le_pow_of_le_one h0 h1 (by omega)
  apply div_le_div₀ (by positivity) hp (by positivity)
  exact_mod_cast (by omega : 2 * n + 1 ≤ 2 * (n + 1) + 1)

theorem f_tendsto (m : ℕ) (hm : 2 ≤ m) :
    Filter.Tendsto (fun n => ∑ i ∈ range n, (-1) ^ i * f m i) Filter.atTop (nhds (arctan (m : ℝ)⁻¹)) := by
  have hm' : (2 : ℝ) ≤ m := by exact_mod_cast hm
  have hx : ‖(m : ℝ)⁻¹‖ < 1 := by
    rw [norm_of_nonneg (by positivity)]
    exact inv_lt_one_of_one_lt₀ (by linarith)
  have := (Real.hasSum_arctan hx).tendsto_sum_nat
  refine this.congr fun n => sum_congr rfl fun i _ => ?_
  unfold f
  rw [mul_div_assoc]

/-- Integer part of the scaled term. -/
def term (D m n : ℕ) : ℕ := D / (m ^ (2 * n + 1) * (2 * n + 1))

theorem f_eq (m n : ℕ) : f m n = 1 / ((m ^ (2 * n + 1) * (2 * n + 1) : ℕ) : ℝ) := by
  unfold f
  push_cast
  rw [inv_pow, div_eq_mul_inv, ← mul_inv, one_div]

theorem term_le (D m n : ℕ) : (term D m n : ℝ) ≤ D * f m n := by
  rw [f_eq, mul_one_div]
  exact Nat.cast_div_le

theorem lt_term (D m n : ℕ) (hm : 0 < m) : (D : ℝ) * f m n ≤ term D m n + 1 := by
  rw [f_eq, mul_one_div]
  have hq : 0 < m ^ (2 * n + 1) * (2 * n + 1) := by positivity
  unfold term
  generalize m ^ (2 * n + 1) * (2 * n + 1) = q at *
  rw [div_le_iff₀ (by exact_mod_cast hq)]
  have := Nat.lt_div_mul_add (a := D) hq
  have h2 : D ≤ (D / q + 1) * q := by rw [Nat.add_mul, one_mul]; omega
  exact_mod_cast h2

/-- Sums of the terms with even and odd number. -/
def evens (D m : ℕ) : ℕ → ℕ
  | 0 => 0
  | k + 1 => evens D m k + term D m (2 * k)

def odds (D m : ℕ) : ℕ → ℕ
  | 0 => 0
  | k + 1 => odds D m k + term D m (2 * k + 1)

theorem sum_lower (D m k : ℕ) (hm : 0 < m) :
    (evens D m k : ℝ) - odds D m k - k ≤ D * ∑ i ∈ range (2 * k), (-1) ^ i * f m i := by
  induction k with
  | zero => simp [evens, odds]
  | succ k ih =>
    rw [show 2 * (k + 1) = 2 * k + 1 + 1 by ring, sum_range_succ, sum_range_succ, mul_add, mul_add]
    have h1 := term_le D m (2 * k)
    have h2 := lt_term D m (2 * k + 1) hm
    simp only [evens, odds, pow_succ, pow_mul, neg_one_mul, one_pow, one_mul, mul_neg, mul_one]
    norm_num
    linarith

theorem sum_upper (D m k : ℕ) (hm : 0 < m) :
    D * ∑ i ∈ range (2 * k), (-1) ^ i * f m i ≤ (evens D m k : ℝ) - odds D m k + k := by
  induction k with
  | zero => simp [evens, odds]
  | succ k ih =>
    rw [show 2 * (k + 1) = 2 * k + 1 + 1 by ring, sum_range_succ, sum_range_succ, mul_add, mul_add]
    have h1 := lt_term D m (2 * k) hm
    have h2 := term_le D m (2 * k + 1)
    simp only [evens, odds, pow_succ, pow_mul, neg_one_mul, one_pow, one_mul, mul_neg, mul_one]
    norm_num
    linarith

theorem arctan_lower (D m k : ℕ) (hm : 2 ≤ m) :
    (evens D m k : ℝ) - odds D m k - k ≤ D * arctan (m : ℝ)⁻¹ := by
  refine (sum_lower D m k (by omega)).trans ?_
  exact mul_le_mul_of_nonneg_left ((f_antitone m hm).alternating_series_le_tendsto (f_tendsto m hm) k) (by positivity)

theorem arctan_upper (D m k : ℕ) (hm : 2 ≤ m) :
    D * arctan (m : ℝ)⁻¹ ≤ (evens D m k : ℝ) - odds D m k + k + term D m (2 * k) + 1 := by
  have h := (f_antitone m hm).tendsto_le_alternating_series (f_tendsto m hm) k
  rw [sum_range_succ, pow_mul, neg_one_sq, one_pow, one_mul] at h
  have h1 := sum_upper D m k (by omega)
  have h2 := lt_term D m (2 * k) (by omega)
  have h3 := mul_le_mul_of_nonneg_left h (show (0 : ℝ) ≤ D by positivity)
  rw [mul_add] at h3
  linarith

/-- The check that pins down `⌊π · E⌋`, with `G` guard units. -/
def piOk (E G k5 k239 N : ℕ) : Bool :=
  let D := E * G
  decide (N * G + 16 * (odds D 5 k5 + k5) + 4 * (evens D 239 k239 + k239 + term D 239 (2 * k239) + 1) ≤
    16 * evens D 5 k5 + 4 * odds D 239 k239) &&
  decide (16 * (evens D 5 k5 + k5 + term D 5 (2 * k5) + 1) + 4 * (odds D 239 k239 + k239) <
    (N + 1) * G + 16 * odds D 5 k5 + 4 * evens D 239 k239)

theorem pi_floor {E G k5 k239 N : ℕ} (hG : 0 < G) (h : piOk E G k5 k239 N = true) :
    (N : ℝ) ≤ π * E ∧ π * E < N + 1 := by
  unfold piOk at h
  simp only [Bool.and_eq_true, decide_eq_true_eq] at h
  obtain ⟨h1, h2⟩ := h
  have l5 := arctan_lower (E * G) 5 k5 (by norm_num)
  have u5 := arctan_upper (E * G) 5 k5 (by norm_num)
  have l239 := arctan_lower (E * G) 239 k239 (by norm_num)
  have u239 := arctan_upper (E * G) 239 k239 (by norm_num)
  have hpi := four_mul_arctan_inv_5_sub_arctan_inv_239
  have hG' : (0 : ℝ) < G := by exact_mod_cast hG
  generalize evens (E * G) 5 k5 = a at *
  generalize odds (E * G) 5 k5 = b at *
  generalize evens (E * G) 239 k239 = c at *
  generalize odds (E * G) 239 k239 = d at *
  generalize term (E * G) 239 (2 * k239) = t at *
  generalize term (E * G) 5 (2 * k5) = t' at *
  push_cast at l5 u5 l239 u239
  have h1' : (N : ℝ) * G + 16 * (b + k5) + 4 * (c + k239 + t + 1) ≤ 16 * a + 4 * d := by exact_mod_cast h1
  have h2' : 16 * ((a : ℝ) + k5 + t' + 1) + 4 * (d + k239) < (N + 1) * G + 16 * b + 4 * c := by exact_mod_cast h2
  have hp : π = 4 * (4 * arctan 5⁻¹ - arctan 239⁻¹) := by linarith
  have hpD : π * E * G = 16 * ((E : ℝ) * G * arctan 5⁻¹) - 4 * ((E : ℝ) * G * arctan 239⁻¹) := by rw [hp]; ring
  constructor
  · refine le_of_mul_le_mul_right ?_ hG'
    rw [hpD]; linarith
  · refine lt_of_mul_lt_mul_right ?_ hG'.le
    rw [hpD]; linarith

/-- The first 722 digits of π. -/
def N722 : ℕ :=
  31415926535897932384626433832795028841971693993751058209749445923078164062862089986280348253421170679821480865132823066470938446095505822317253594081284811174502841027019385211055596446229489549303819644288109756659334461284756482337867831652712019091456485669234603486104543266482133936072602491412737245870066063155881748815209209628292540917153643678925903600113305305488204665213841469519415116094330572703657595919530921861173819326117931051185480744623799627495673518857527248912279381830119491298336733624406566430860213949463952247371907021798609437027705392171762931767523846748184676694051320005681271452635608277857713427577896091736371787214684409012249534301465495853710507922796892589235420199561121290219608

theorem pi722 : piOk (10 ^ 721) (10 ^ 20) 270 80 N722 = true := by decide +kernel

/-- The digits of π, as computed from `N722`. -/
theorem floor_pi (i : ℕ) (hi : i ≤ 721) : ⌊π * 10 ^ i⌋₊ = N722 / 10 ^ (721 - i) := by
  obtain ⟨h1, h2⟩ := pi_floor (by positivity) pi722
  have hf : ⌊π * ((10 ^ 721 : ℕ) : ℝ)⌋₊ = N722 := by
    rw [Nat.floor_eq_iff (by positivity)]
    exact ⟨h1, h2⟩
  rw [← hf, ← Nat.floor_div_natCast]
  congr 1
  push_cast
  rw [eq_div_iff (by positivity), mul_assoc, ← pow_add]
  congr 2
  omega

end Verif.PiDigits
