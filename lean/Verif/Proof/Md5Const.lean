import Verif.Spec.Md
import Verif.Model.Md
import Mathlib.Analysis.Complex.Exponential
import Mathlib.Analysis.SpecialFunctions.Trigonometric.Basic
import Mathlib.Tactic.NormNum
import Mathlib.Tactic.Ring
import Mathlib.Tactic.Linarith

/-! # The MD5 constants are sines

`exp i` is within `10⁻¹⁸` of a Gaussian rational `q`; `sin n` is the imaginary part of `(exp i)ⁿ`, which is close
to that of `qⁿ`, a quotient of integers. -/

namespace Verif.Model.Md5
open Verif Complex

/-- `19!`, and the real and imaginary part of `19! · ∑ m < 20, iᵐ / m!`. -/
def gD : ℤ := 121645100408832000
def gA : ℤ := 65725128248453315
def gB : ℤ := 102360822438075317

noncomputable def q : ℂ := ((gA : ℂ) + gB * I) / gD

theorem sum_eq_q : ∑ m ∈ Finset.range 20, I ^ m / (m.factorial : ℂ) = q := by
  simp only [Finset.sum_range_succ, Finset.sum_range_zero, Nat.factorial]
  rw [I_pow_eq_pow_mod 4, I_pow_eq_pow_mod 5, I_pow_eq_pow_mod 6, I_pow_eq_pow_mod 7, I_pow_eq_pow_mod 8,
    I_pow_eq_pow_mod 9, I_pow_eq_pow_mod 10, I_pow_eq_pow_mod 11, I_pow_eq_pow_mod 12, I_pow_eq_pow_mod 13,
    I_pow_eq_pow_mod 14, I_pow_eq_pow_mod 15, I_pow_eq_pow_mod 16, I_pow_eq_pow_mod 17, I_pow_eq_pow_mod 18,
    I_pow_eq_pow_mod 19]
  norm_num [q, gA, gB, gD, I_pow_three]
  ring

theorem exp_I_near : ‖exp I - q‖ ≤ 1 / 10 ^ 18 := by
  have h := Complex.exp_bound (x := I) (by simp) (n := 20) (by norm_num)
  rw [sum_eq_q] at h
  refine h.trans ?_
  simp only [norm_I, Nat.factorial]
  norm_num

theorem norm_exp_I : ‖exp I‖ = 1 := by
  have := Complex.norm_exp_ofReal_mul_I 1
  simpa using this

theorem norm_q_le : ‖q‖ ≤ 1 + 1 / 10 ^ 18 := by
  have h : q = exp I - (exp I - q) := by ring
  rw [h]
  refine (norm_sub_le _ _).trans ?_
  rw [norm_exp_I]
  linarith [exp_I_near]

theorem norm_q_pow (n : ℕ) (hn : n ≤ 64) : ‖q‖ ^ n ≤ 2 := by
  have h1 : ‖q‖ ^ n ≤ (1 + 1 / 10 ^ 18 : ℝ) ^ n := pow_le_pow_left₀ (norm_nonneg _) norm_q_le n
  have h2 : (1 + 1 / 10 ^ 18 : ℝ) ^ n ≤ (1 + 1 / 10 ^ 18 : ℝ) ^ 64 := pow_le_pow_right₀ (by norm_num) hn
  have h3 : (1 + 1 / 10 ^ 18 : ℝ) ^ 64 ≤ 2 := by norm_num
  linarith

theorem pow_near (n : ℕ) (hn : n ≤ 64) : ‖exp I ^ n - q ^ n‖ ≤ n * (2 / 10 ^ 18) := by
  induction n with
  | zero => simp
  | succ n ih =>
    have e : exp I ^ (n + 1) - q ^ (n + 1) = exp I * (exp I ^ n - q ^ n) + (exp I - q) * q ^ n := by ring
    rw [e]
    refine (norm_add_le _ _).trans ?_
    rw [norm_mul, norm_mul, norm_exp_I, norm_pow, one_mul]
    have h1 := ih (by omega)
    have h2 := norm_q_pow n (by omega)
    have h3 := exp_I_near
    have h4 : ‖exp I - q‖ * ‖q‖ ^ n ≤ 1 / 10 ^ 18 * 2 :=
      mul_le_mul h3 h2 (by positivity) (by positivity)
    push_cast
    linarith

/-- Powers of the Gaussian integer. -/
def gpow : ℕ → ℤ × ℤ
  | 0 => (1, 0)
  | n + 1 => ((gpow n).1 * gA - (gpow n).2 * gB, (gpow n).1 * gB + (gpow n).2 * gA)

theorem gpow_eq (n : ℕ) : ((gA : ℂ) + gB * I) ^ n = (gpow n).1 + (gpow n).2 * I := by
  induction n with
  | zero => simp [gpow]
  | succ n ih =>
    rw [pow_succ, ih]
    simp only [gpow]
    push_cast
    linear_combination ((gpow n).2 : ℂ) * gB * I_mul_I

theorem q_pow_im (n : ℕ) : (q ^ n).im = (gpow n).2 / (gD : ℝ) ^ n := by
  have h : q ^ n = (((gpow n).1 / (gD : ℝ) ^ n : ℝ) : ℂ) + (((gpow n).2 / (gD : ℝ) ^ n : ℝ) : ℂ) * I := by
    unfold q
    rw [div_pow, gpow_eq]
    push_cast
    ring
  rw [h, add_im, ofReal_im, im_ofReal_mul, I_im, zero_add, mul_one]

theorem sin_eq (n : ℕ) : Real.sin n = (exp I ^ n).im := by
  rw [← Complex.exp_nat_mul]
  have := Complex.exp_ofReal_mul_I_im (n : ℝ)
  simpa using this.symm

theorem sin_near (n : ℕ) (hn : n ≤ 64) : |Real.sin n - (gpow n).2 / (gD : ℝ) ^ n| ≤ 1 / 10 ^ 15 := by
  rw [sin_eq, ← q_pow_im, ← Complex.sub_im]
  refine (Complex.abs_im_le_norm _).trans ((pow_near n hn).trans ?_)
  have : (n : ℝ) ≤ 64 := by exact_mod_cast hn
  nlinarith

/-- The integer inequalities that pin down `⌊K |sin n|⌋` when the error is at most `1 / M`. -/
def sinOkB (K M n w : ℕ) (g : ℤ) : Bool :=
  decide (((w : ℤ) * M + K) * gD ^ n ≤ K * M * |g|) && decide (K * M * |g| < (((w : ℤ) + 1) * M - K) * gD ^ n)

theorem floor_of_near {K M n w : ℕ} {g : ℤ} {x : ℝ} (hK : 0 < K) (hM : 0 < M)
    (hs : |x - g / (gD : ℝ) ^ n| ≤ 1 / M) (h : sinOkB K M n w g = true) : ⌊(K : ℝ) * |x|⌋₊ = w := by
  unfold sinOkB at h
  simp only [Bool.and_eq_true, decide_eq_true_eq] at h
  obtain ⟨h1, h2⟩ := h
  have hD : (0 : ℝ) < (gD : ℝ) ^ n := by
    apply pow_pos
    have : (0 : ℤ) < gD := by decide
    exact_mod_cast this
  have hK' : (0 : ℝ) < K := by exact_mod_cast hK
  have hM' : (0 : ℝ) < M := by exact_mod_cast hM
  have h1' : ((w : ℝ) * M + K) * (gD : ℝ) ^ n ≤ K * M * |(g : ℝ)| := by exact_mod_cast h1
  have h2' : K * M * |(g : ℝ)| < (((w : ℝ) + 1) * M - K) * (gD : ℝ) ^ n := by exact_mod_cast h2
  generalize (gD : ℝ) ^ n = D at *
  have habs : |(g : ℝ) / D| = |(g : ℝ)| / D := by rw [abs_div, abs_of_pos hD]
  have hd := abs_abs_sub_abs_le_abs_sub x ((g : ℝ) / D)
  rw [habs] at hd
  obtain ⟨hlo, hhi⟩ := abs_le.1 (hd.trans hs)
  have h1'' : ((w : ℝ) * M + K) / (K * M) ≤ |(g : ℝ)| / D := by
    rw [div_le_div_iff₀ (by positivity) hD]
    linarith
  have h2'' : |(g : ℝ)| / D < (((w : ℝ) + 1) * M - K) / (K * M) := by
    rw [div_lt_div_iff₀ hD (by positivity)]
    linarith
  rw [Nat.floor_eq_iff (by positivity)]
  constructor
  · have : ((w : ℝ) * M + K) / (K * M) = w / K + 1 / M := by field_simp
    have h3 : (w : ℝ) / K ≤ |x| := by linarith
    rw [div_le_iff₀ hK'] at h3
    linarith
  · have : (((w : ℝ) + 1) * M - K) / (K * M) = (w + 1) / K - 1 / M := by field_simp
    have h3 : |x| < (w + 1) / K := by linarith
    rw [lt_div_iff₀ hK'] at h3
    linarith

/-- The check for all constants at once, with one running power. -/
def sinLoop (K M : ℕ) : ℕ → ℤ × ℤ → List ℕ → Bool
  | _, _, [] => true
  | n, (a, b), w :: ws => sinOkB K M n w b && sinLoop K M (n + 1) (a * gA - b * gB, a * gB + b * gA) ws

theorem sinLoop_get (K M n : ℕ) (ws : List ℕ) (h : sinLoop K M n (gpow n) ws = true) (i : ℕ) (hi : i < ws.length) :
    sinOkB K M (n + i) ws[i] (gpow (n + i)).2 = true := by
  induction ws generalizing n i with
  | nil => simp at hi
  | cons w ws ih =>
    have h' : (sinOkB K M n w (gpow n).2 && sinLoop K M (n + 1) (gpow (n + 1)) ws) = true := h
    rw [Bool.and_eq_true] at h'
    cases i with
    | zero => exact h'.1
    | succ i =>
      have := ih (n + 1) h'.2 i (by simpa using hi)
      rw [show n + (i + 1) = n + 1 + i by omega]
      exact this

theorem sinLoop_ok : sinLoop 4294967296 (10 ^ 15) 1 (gpow 1) (T.toList.map BitVec.toNat) = true := by decide +kernel

theorem T_floor (t : ℕ) (ht : t < 64) : ⌊(4294967296 : ℝ) * |Real.sin ((t + 1 : ℕ) : ℝ)|⌋₊ = T[t].toNat := by
  have h := sinLoop_get _ _ _ _ sinLoop_ok t (by simp [ht])
  rw [List.getElem_map, Vector.getElem_toList, Nat.add_comm 1 t] at h
  have hs := sin_near (t + 1) (by omega)
  have key := floor_of_near (x := Real.sin ((t + 1 : ℕ) : ℝ)) (by norm_num) (by norm_num) (hs.trans (by norm_num)) h
  have e : (4294967296 : ℝ) = ((4294967296 : ℕ) : ℝ) := by norm_num
  rw [e, key]

theorem T_eq (t : ℕ) (ht : t < 64) : T[t] = Spec.Md.md5T (t + 1) := by
  unfold Spec.Md.md5T
  rw [T_floor t ht, BitVec.ofNat_toNat, BitVec.setWidth_eq]

end Verif.Model.Md5
