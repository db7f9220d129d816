import Mathlib.Analysis.Complex.ExponentialBounds
import Mathlib.NumberTheory.Real.GoldenRatio
import Verif.Model.Rc5

/-! # Property C16, the magic constants of RC5 -/

namespace Verif.Props
open Verif Model

/-- `Odd(x)` of the RC5 paper: the odd integer nearest to `x`. -/
def NearestOdd (n : ℕ) (x : ℝ) : Prop := n % 2 = 1 ∧ ∀ m : ℕ, m % 2 = 1 → |x - n| ≤ |x - m|

theorem nearestOdd_of_close {n : ℕ} {x : ℝ} (hn : n % 2 = 1) (h : |x - n| ≤ 1) : NearestOdd n x := by
  refine ⟨hn, fun m hm => ?_⟩
  by_cases e : m = n
  · rw [e]
  · have hd : (2 : ℝ) ≤ |(n : ℝ) - m| := by
      have : (2 : ℤ) ≤ |(n : ℤ) - m| := by
        rw [le_abs]
        omega
      exact_mod_cast this
    have : |(n : ℝ) - m| ≤ |x - n| + |x - m| := by
      have := abs_sub_le (n : ℝ) x m
      rwa [abs_sub_comm (n : ℝ) x] at this
    linarith

/-- C16: `P32` is `Odd((e - 2) · 2^32)`. -/
theorem C16_P32 : NearestOdd Rc5.P32.toNat ((Real.exp 1 - 2) * 2 ^ 32) := by
  apply nearestOdd_of_close (by decide)
  have h := abs_le.1 Real.exp_one_near_20
  have h1 := h.1
  have h2 := h.2
  have e : ((Rc5.P32.toNat : ℕ) : ℝ) = 3084996963 := by
    have : Rc5.P32.toNat = 3084996963 := by decide
    rw [this]; norm_num
  rw [e, abs_le]
  constructor <;> linarith

/-- C16: `Q32` is `Odd((φ - 1) · 2^32)` with `φ` the golden ratio. -/
theorem C16_Q32 : NearestOdd Rc5.Q32.toNat ((Real.goldenRatio - 1) * 2 ^ 32) := by
  apply nearestOdd_of_close (by decide)
  have e : ((Rc5.Q32.toNat : ℕ) : ℝ) = 2654435769 := by
    have : Rc5.Q32.toNat = 2654435769 := by decide
    rw [this]; norm_num
  have h5 : Real.sqrt 5 ^ 2 = 5 := Real.sq_sqrt (by norm_num)
  have h0 := Real.sqrt_nonneg 5
  have h1 : (2.2360679774 : ℝ) < Real.sqrt 5 := by
    rw [Real.lt_sqrt (by norm_num)]; norm_num
  have h2 : Real.sqrt 5 < (2.2360679776 : ℝ) := by
    rw [Real.sqrt_lt' (by norm_num)]; norm_num
  rw [e, abs_le, Real.goldenRatio]
  constructor <;> linarith

/-- The notion is not vacuous: 4 is not the nearest odd integer to anything, 3 is for 3.2. -/
example : NearestOdd 3 3.2 ∧ ¬ NearestOdd 4 3.2 :=
  ⟨nearestOdd_of_close (by decide) (by norm_num [abs_le]), fun h => absurd h.1 (by decide)⟩

end Verif.Props
