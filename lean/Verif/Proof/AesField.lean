import Verif.Model.Aes
import Verif.Spec.Aes
import Mathlib.RingTheory.AdjoinRoot
import Mathlib.Algebra.CharP.Two
import Mathlib.Tactic.LinearCombination
import Mathlib.Algebra.Field.ZMod

/-! # GF(2^8): the byte functions of `field.rs` against polynomials over `ZMod 2` -/

namespace Verif.Model.Aes
open Verif Polynomial
open Verif.Spec.Aes (toPoly ofPoly gmul m)

theorem m_monic : (m : (ZMod 2)[X]).Monic := by
  unfold m
  monicity!

theorem m_natDegree : (m : (ZMod 2)[X]).natDegree = 8 := by
  unfold m
  compute_degree!

theorem toPoly_expand (b : U8) : toPoly b =
    (if b.getLsbD 0 then 1 else 0) + (if b.getLsbD 1 then X else 0) + (if b.getLsbD 2 then X ^ 2 else 0)
    + (if b.getLsbD 3 then X ^ 3 else 0) + (if b.getLsbD 4 then X ^ 4 else 0)
    + (if b.getLsbD 5 then X ^ 5 else 0) + (if b.getLsbD 6 then X ^ 6 else 0)
    + (if b.getLsbD 7 then X ^ 7 else 0) := by
  simp [toPoly, Finset.sum_range_succ]

theorem toPoly_coeff (b : U8) (i : Nat) (hi : i < 8) : (toPoly b).coeff i = if b.getLsbD i then 1 else 0 := by
  unfold toPoly
  rw [finset_sum_coeff, Finset.sum_eq_single i]
  · split <;> simp
  · intro j _ hj
    split
    · rw [coeff_X_pow, if_neg (fun h => hj h.symm)]
    · simp
  · intro h
    exact absurd (Finset.mem_range.mpr hi) h

theorem toPoly_degree (b : U8) : (toPoly b).degree < 8 := by
  unfold toPoly
  refine lt_of_le_of_lt (degree_sum_le _ _) ?_
  rw [Finset.sup_lt_iff (by exact WithBot.bot_lt_coe 8)]
  intro i hi
  split
  · rw [degree_X_pow]
    exact_mod_cast Finset.mem_range.mp hi
  · rw [degree_zero]; exact WithBot.bot_lt_coe 8

theorem toPoly_injective : Function.Injective toPoly := by
  intro a b h
  apply BitVec.eq_of_getLsbD_eq
  intro i hi
  have h1 := toPoly_coeff a i hi
  have h2 := toPoly_coeff b i hi
  rw [h, h2] at h1
  revert h1
  cases a.getLsbD i <;> cases b.getLsbD i <;> simp

theorem ofPoly_toPoly (b : U8) : ofPoly (toPoly b) = b :=
  Function.leftInverse_invFun toPoly_injective b

theorem toPoly_xor (a b : U8) : toPoly (a ^^^ b) = toPoly a + toPoly b := by
  unfold toPoly
  rw [← Finset.sum_add_distrib]
  apply Finset.sum_congr rfl
  intro i _
  rw [BitVec.getLsbD_xor]
  cases a.getLsbD i <;> cases b.getLsbD i <;> simp [CharTwo.add_self_eq_zero]

theorem toPoly_zero : toPoly 0#8 = 0 := by simp [toPoly]
theorem toPoly_one : toPoly 1#8 = 1 := by
  rw [toPoly_expand]
  simp

/-- The quotient ring. -/
noncomputable abbrev Q := AdjoinRoot m
/-- The class of a byte. -/
noncomputable def φ (b : U8) : Q := AdjoinRoot.mk m (toPoly b)
noncomputable def α : Q := AdjoinRoot.root m

theorem φ_xor (a b : U8) : φ (a ^^^ b) = φ a + φ b := by simp [φ, toPoly_xor]
theorem φ_zero : φ 0#8 = 0 := by simp [φ, toPoly_zero]
theorem φ_one : φ 1#8 = 1 := by simp [φ, toPoly_one]

theorem φ_eq_zero {b : U8} (h : φ b = 0) : b = 0#8 := by
  apply toPoly_injective
  rw [toPoly_zero]
  refine eq_zero_of_dvd_of_degree_lt (AdjoinRoot.mk_eq_zero.mp h) ?_
  refine lt_of_lt_of_eq (toPoly_degree b) ?_
  rw [degree_eq_natDegree m_monic.ne_zero, m_natDegree]; rfl

theorem φ_injective : Function.Injective φ := by
  intro a b h
  have h1 : φ (a ^^^ b) = 0 := by
    rw [φ_xor, h, ← φ_xor, BitVec.xor_self, φ_zero]
  have h2 := φ_eq_zero h1
  have h3 : a ^^^ b ^^^ b = 0#8 ^^^ b := by rw [h2]
  simpa [BitVec.xor_assoc] using h3

theorem Q_two : (2 : Q) = 0 := by
  have h1 : (1 : ZMod 2) + 1 = 0 := rfl
  have h2 : AdjoinRoot.of m ((1 : ZMod 2) + 1) = 0 := by rw [h1, map_zero]
  rw [map_add, map_one] at h2
  rw [← h2]; norm_num

theorem α_rel : α ^ 8 + α ^ 4 + α ^ 3 + α + 1 = 0 := by
  have h : AdjoinRoot.mk m m = 0 := AdjoinRoot.mk_self
  conv at h => lhs; arg 2; unfold m
  simpa [α, AdjoinRoot.mk_X] using h

theorem φ_expand (b : U8) : φ b =
    (if b.getLsbD 0 then 1 else 0) + (if b.getLsbD 1 then α else 0) + (if b.getLsbD 2 then α ^ 2 else 0)
    + (if b.getLsbD 3 then α ^ 3 else 0) + (if b.getLsbD 4 then α ^ 4 else 0)
    + (if b.getLsbD 5 then α ^ 5 else 0) + (if b.getLsbD 6 then α ^ 6 else 0)
    + (if b.getLsbD 7 then α ^ 7 else 0) := by
  unfold φ
  rw [toPoly_expand]
  simp only [map_add, apply_ite (AdjoinRoot.mk m), map_zero, map_one, map_pow, AdjoinRoot.mk_X, α]

theorem and80 (a : U8) : (a &&& 0x80#8 ≠ 0#8) ↔ a.getLsbD 7 = true := by
  revert a; decide +kernel

theorem and01 (a : U8) : (a &&& 1#8 ≠ 0#8) ↔ a.getLsbD 0 = true := by
  revert a; decide +kernel

theorem φ_1b : φ 0x1b#8 = α ^ 4 + α ^ 3 + α + 1 := by
  rw [φ_expand]
  simp
  ring

theorem φ_shl (a : U8) : φ (a <<< 1) + (if a.getLsbD 7 then α ^ 8 else 0) = α * φ a := by
  rw [φ_expand (a <<< 1), φ_expand a]
  simp only [BitVec.getLsbD_shiftLeft]
  simp only [mul_add, mul_ite, mul_zero, mul_one]
  norm_num
  ring_nf

theorem φ_mul2 (a : U8) : φ (mul2 a) = α * φ a := by
  unfold mul2
  rw [← φ_shl]
  simp only [and80]
  rw [φ_xor]
  congr 1
  split
  · rw [φ_1b]
    linear_combination (-1) * α_rel + (α ^ 4 + α ^ 3 + α + 1) * Q_two
  · exact φ_zero

theorem φ_mul3 (a : U8) : φ (mul3 a) = (α + 1) * φ a := by
  have : mul3 a = a ^^^ mul2 a := by unfold mul3 mul2; rw [BitVec.xor_assoc]
  rw [this, φ_xor, φ_mul2]; ring

theorem φ_shr (b : U8) : φ b = (if b.getLsbD 0 then 1 else 0) + α * φ (b >>> 1) := by
  rw [φ_expand (b >>> 1), φ_expand b]
  simp only [BitVec.getLsbD_ushiftRight, mul_add, mul_ite, mul_zero, mul_one]
  rw [show b.getLsbD (1 + 7) = false from BitVec.getLsbD_of_ge _ _ (by decide)]
  norm_num
  ring_nf

theorem φ_mulLoop (n : Nat) : ∀ a b r : U8, ∃ a' : U8,
    φ (mulLoop n a b r) + φ a' * φ (b >>> n) = φ r + φ a * φ b := by
  induction n with
  | zero => intro a b r; exact ⟨a, by simp [mulLoop]⟩
  | succ n ih =>
    intro a b r
    have h1 : (if decide (a &&& 0x80#8 ≠ 0#8) = true then a <<< 1 ^^^ 0x1b#8 else a <<< 1) = mul2 a := by
      unfold mul2
      by_cases h : a &&& 0x80#8 ≠ 0#8 <;> simp [h]
    simp only [mulLoop]
    rw [h1]
    obtain ⟨a', h⟩ := ih (mul2 a) (b >>> 1) (if b &&& 1#8 ≠ 0#8 then r ^^^ a else r)
    refine ⟨a', ?_⟩
    rw [show b >>> (n + 1) = b >>> 1 >>> n by rw [← BitVec.shiftRight_add, Nat.add_comm], h, φ_mul2, φ_shr b]
    simp only [and01]
    split
    · rw [φ_xor]; ring
    · ring

theorem φ_mul (a b : U8) : φ (mul a b) = φ a * φ b := by
  obtain ⟨a', h⟩ := φ_mulLoop 8 a b 0#8
  have h8 : b >>> 8 = 0#8 := by
    apply BitVec.eq_of_getLsbD_eq
    intro i hi
    rw [BitVec.getLsbD_ushiftRight, BitVec.getLsbD_of_ge _ _ (by omega)]
    simp
  rw [h8, φ_zero, mul_zero, add_zero, zero_add] at h
  exact h

/-- The byte product is the polynomial product reduced modulo `m`. -/
theorem toPoly_mul (a b : U8) : toPoly (mul a b) = (toPoly a * toPoly b) %ₘ m := by
  have h := φ_mul a b
  unfold φ at h
  rw [← map_mul, AdjoinRoot.mk_eq_mk] at h
  have h2 : (toPoly (mul a b)) %ₘ m = (toPoly a * toPoly b) %ₘ m := by
    rw [← sub_eq_zero, ← sub_modByMonic, (modByMonic_eq_zero_iff_dvd m_monic)]
    exact h
  rw [← h2, (modByMonic_eq_self_iff m_monic).mpr]
  refine lt_of_lt_of_eq (toPoly_degree _) ?_
  rw [degree_eq_natDegree m_monic.ne_zero, m_natDegree]; rfl

theorem mul_eq_gmul (a b : U8) : mul a b = gmul a b := by
  unfold gmul
  rw [← toPoly_mul, ofPoly_toPoly]

theorem mul_comm' (a b : U8) : mul a b = mul b a := φ_injective (by rw [φ_mul, φ_mul, mul_comm])
theorem mul_assoc' (a b c : U8) : mul (mul a b) c = mul a (mul b c) :=
  φ_injective (by simp only [φ_mul]; ring)
theorem mul_xor (a b c : U8) : mul a (b ^^^ c) = mul a b ^^^ mul a c :=
  φ_injective (by simp only [φ_mul, φ_xor]; ring)
theorem mul_one' (a : U8) : mul a 1#8 = a := φ_injective (by rw [φ_mul, φ_one, mul_one])

theorem φ_2 : φ 2#8 = α := by
  have := φ_mul2 1#8
  rw [φ_one, mul_one] at this
  rw [← this]; congr 1
theorem φ_3 : φ 3#8 = α + 1 := by
  rw [← φ_2, ← φ_one, ← φ_xor]; congr 1
theorem φ_9 : φ 9#8 = α ^ 3 + 1 := by
  have : (9 : U8) = mul2 (mul2 (mul2 1#8)) ^^^ 1#8 := by decide
  rw [show (9#8) = mul2 (mul2 (mul2 1#8)) ^^^ 1#8 by decide, φ_xor, φ_mul2, φ_mul2, φ_mul2, φ_one]; ring
theorem φ_11 : φ 11#8 = α ^ 3 + α + 1 := by
  rw [show (11#8) = 9#8 ^^^ 2#8 by decide, φ_xor, φ_9, φ_2]; ring
theorem φ_13 : φ 13#8 = α ^ 3 + α ^ 2 + 1 := by
  rw [show (13#8) = 9#8 ^^^ mul2 2#8 by decide, φ_xor, φ_9, φ_mul2, φ_2]; ring
theorem φ_14 : φ 14#8 = α ^ 3 + α ^ 2 + α := by
  rw [show (14#8) = 13#8 ^^^ 3#8 by decide, φ_xor, φ_13, φ_3]; linear_combination Q_two

theorem mul2_eq (a : U8) : mul2 a = gmul 2#8 a := by
  rw [← mul_eq_gmul]; exact φ_injective (by rw [φ_mul2, φ_mul, φ_2])
theorem mul3_eq (a : U8) : mul3 a = gmul 3#8 a := by
  rw [← mul_eq_gmul]; exact φ_injective (by rw [φ_mul3, φ_mul, φ_3])

end Verif.Model.Aes
