import Verif.Proof.AesSpec
import Mathlib.Algebra.BigOperators.Fin
import Mathlib.Data.Fintype.Pi
import Mathlib.Tactic.FinCases

/-! # How differences spread through the rounds of AES -/

namespace Verif.Model.Aes
open Verif

/-! ## MixColumns -/

/-- The column after `MixColumns`. -/
def mixCol (x : Fin 4 → U8) (r : Fin 4) : U8 := mixByte (x r) (x (r + 1)) (x (r + 2)) (x (r + 3))

/-- The matrix of `MixColumns`. -/
def coef (k j : Fin 4) : U8 := (#v[2#8, 3#8, 1#8, 1#8])[(j - k).val]

theorem mul_zero' (a : U8) : mul a 0#8 = 0#8 := φ_injective (by rw [φ_mul, φ_zero, mul_zero])
theorem zero_mul' (a : U8) : mul 0#8 a = 0#8 := φ_injective (by rw [φ_mul, φ_zero, zero_mul])
theorem one_mul'' (a : U8) : mul 1#8 a = a := by rw [mul_comm', mul_one']
theorem mul2_eq' (a : U8) : mul2 a = mul 2#8 a := by rw [mul2_eq, mul_eq_gmul]
theorem mul3_eq' (a : U8) : mul3 a = mul 3#8 a := by rw [mul3_eq, mul_eq_gmul]

theorem mul_cancel {d a : U8} (hd : d ≠ 0#8) (h : mul d a = 0#8) : a = 0#8 := by
  have h1 : mul (mul d (invOf d)) a = 0#8 := by
    rw [mul_comm' d, mul_assoc', h, mul_zero']
  rwa [mul_invOf d hd, one_mul''] at h1

/-- Cramer's rule for two unknowns. -/
theorem minor (p q r s a b : U8) (hd : mul p s ^^^ mul q r ≠ 0#8) (h1 : mul p a ^^^ mul q b = 0#8)
    (h2 : mul r a ^^^ mul s b = 0#8) : a = 0#8 ∧ b = 0#8 := by
  have e1 := congrArg φ h1
  have e2 := congrArg φ h2
  simp only [φ_xor, φ_mul, φ_zero] at e1 e2
  have two := Q_two
  constructor
  · apply mul_cancel hd
    apply φ_injective
    simp only [φ_xor, φ_mul, φ_zero]
    linear_combination φ s * e1 + φ q * e2 - φ q * φ s * φ b * two
  · apply mul_cancel hd
    apply φ_injective
    simp only [φ_xor, φ_mul, φ_zero]
    linear_combination φ r * e1 + φ p * e2 - φ p * φ r * φ a * two

theorem coef_ne : ∀ k j, coef k j ≠ 0#8 := by decide +kernel
theorem coef_minor : ∀ k l i j, k ≠ l → i ≠ j → mul (coef k i) (coef l j) ^^^ mul (coef k j) (coef l i) ≠ 0#8 := by
  decide +kernel

theorem mixCol_coef (x : Fin 4 → U8) (k : Fin 4) :
    mixCol x k = mul (coef k 0) (x 0) ^^^ mul (coef k 1) (x 1) ^^^ mul (coef k 2) (x 2) ^^^ mul (coef k 3) (x 3) := by
  unfold mixCol mixByte
  rw [mul2_eq', mul3_eq']
  have e : coef 0 0 = 2#8 ∧ coef 0 1 = 3#8 ∧ coef 0 2 = 1#8 ∧ coef 0 3 = 1#8 ∧ coef 1 0 = 1#8 ∧ coef 1 1 = 2#8 ∧
      coef 1 2 = 3#8 ∧ coef 1 3 = 1#8 ∧ coef 2 0 = 1#8 ∧ coef 2 1 = 1#8 ∧ coef 2 2 = 2#8 ∧ coef 2 3 = 3#8 ∧
      coef 3 0 = 3#8 ∧ coef 3 1 = 1#8 ∧ coef 3 2 = 1#8 ∧ coef 3 3 = 2#8 := by decide +kernel
  fin_cases k <;> simp [e, one_mul''] <;> ac_rfl

/-- One byte that is not zero makes all four not zero. -/
theorem mixCol_one (x : Fin 4 → U8) (i k : Fin 4) (hx : ∀ j, j ≠ i → x j = 0#8) (hk : mixCol x k = 0#8) : x i = 0#8 := by
  rw [mixCol_coef] at hk
  apply mul_cancel (coef_ne k i)
  fin_cases i
  · rw [hx 1 (by decide), hx 2 (by decide), hx 3 (by decide)] at hk; simpa [mul_zero'] using hk
  · rw [hx 0 (by decide), hx 2 (by decide), hx 3 (by decide)] at hk; simpa [mul_zero'] using hk
  · rw [hx 0 (by decide), hx 1 (by decide), hx 3 (by decide)] at hk; simpa [mul_zero'] using hk
  · rw [hx 0 (by decide), hx 1 (by decide), hx 2 (by decide)] at hk; simpa [mul_zero'] using hk

theorem mixCol_two (x : Fin 4 → U8) (i j k l : Fin 4) (hij : i < j) (hkl : k ≠ l)
    (hx : ∀ m, m ≠ i → m ≠ j → x m = 0#8) (hk : mixCol x k = 0#8) (hl : mixCol x l = 0#8) : x i = 0#8 ∧ x j = 0#8 := by
  rw [mixCol_coef] at hk hl
  have key : ∀ k, mul (coef k 0) (x 0) ^^^ mul (coef k 1) (x 1) ^^^ mul (coef k 2) (x 2) ^^^ mul (coef k 3) (x 3) = 0#8 →
      mul (coef k i) (x i) ^^^ mul (coef k j) (x j) = 0#8 := by
    intro k hk
    have hz : ∀ m, m ≠ i → m ≠ j → mul (coef k m) (x m) = 0#8 := fun m h1 h2 => by rw [hx m h1 h2, mul_zero']
    generalize hf : (fun m => mul (coef k m) (x m)) = f at hz
    have hf' : ∀ m, mul (coef k m) (x m) = f m := fun m => congrFun hf m
    simp only [hf'] at hk hz ⊢
    revert i j
    intro i j
    fin_cases i <;> fin_cases j <;> intro hij hx hz <;> first
      | exact absurd hij (by decide)
      | skip
    · simp only [hz 2 (by decide) (by decide), hz 3 (by decide) (by decide)] at hk; simpa using hk
    · simp only [hz 1 (by decide) (by decide), hz 3 (by decide) (by decide)] at hk; simpa using hk
    · simp only [hz 1 (by decide) (by decide), hz 2 (by decide) (by decide)] at hk; simpa using hk
    · simp only [hz 0 (by decide) (by decide), hz 3 (by decide) (by decide)] at hk; simpa using hk
    · simp only [hz 0 (by decide) (by decide), hz 2 (by decide) (by decide)] at hk; simpa using hk
    · simp only [hz 0 (by decide) (by decide), hz 1 (by decide) (by decide)] at hk; simpa using hk
  exact minor _ _ _ _ _ _ (coef_minor k l i j hkl (ne_of_lt hij)) (key k hk) (key l hl)

/-- The column before `MixColumns` from that after it. -/
theorem unmixCol (x : Fin 4 → U8) (r : Fin 4) :
    unmixByte (mixCol x r) (mixCol x (r + 1)) (mixCol x (r + 2)) (mixCol x (r + 3)) = x r := by
  have h := unmix_mix (x r) (x (r + 1)) (x (r + 2)) (x (r + 3))
  unfold mixCol
  fin_cases r <;> exact h

theorem unmix_one (y : Fin 4 → U8) (i k : Fin 4) (hy : ∀ j, j ≠ i → y j = 0#8)
    (hk : unmixByte (y k) (y (k + 1)) (y (k + 2)) (y (k + 3)) = 0#8) : y i = 0#8 := by
  have z : ∀ a, mul 0#8 a = 0#8 := zero_mul'
  unfold unmixByte at hk
  have c : ∀ d a : U8, d ≠ 0#8 → mul a d = 0#8 → a = 0#8 := fun d a hd h => mul_cancel hd (by rwa [mul_comm'])
  have h0 := hy 0; have h1 := hy 1; have h2 := hy 2; have h3 := hy 3
  have e : (1 : Fin 4) + 1 = 2 ∧ (1 : Fin 4) + 2 = 3 ∧ (1 : Fin 4) + 3 = 0 ∧ (2 : Fin 4) + 1 = 3 ∧ (2 : Fin 4) + 2 = 0 ∧
    (2 : Fin 4) + 3 = 1 ∧ (3 : Fin 4) + 1 = 0 ∧ (3 : Fin 4) + 2 = 1 ∧ (3 : Fin 4) + 3 = 2 := by decide
  obtain ⟨e1, e2, e3, e4, e5, e6, e7, e8, e9⟩ := e
  fin_cases i <;> fin_cases k <;> simp [e1, e2, e3, e4, e5, e6, e7, e8, e9] at hk h0 h1 h2 h3 ⊢ <;>
    simp only [h0, h1, h2, h3, z, BitVec.xor_zero, BitVec.zero_xor] at hk <;> first | exact c _ _ (by decide) hk | exact c _ _ (by decide) hk.symm

/-- How many of four bytes are not zero. -/
def weight (p : Fin 4 → Bool) : Nat := ∑ r, (p r).toNat

set_option synthInstance.maxHeartbeats 200000 in
set_option synthInstance.maxSize 4000 in
theorem pattern (X Y : Fin 4 → Bool) (h1 : ∀ i k, (∀ j, j ≠ i → X j = false) → Y k = false → X i = false)
    (h2 : ∀ i j k l, i < j → k ≠ l → (∀ m, m ≠ i → m ≠ j → X m = false) → Y k = false → Y l = false →
      X i = false ∧ X j = false)
    (h3 : ∀ i k, (∀ j, j ≠ i → Y j = false) → X k = false → Y i = false)
    (h4 : (∀ j, Y j = false) → ∀ j, X j = false) (h5 : (∀ j, X j = false) → ∀ j, Y j = false) :
    ((∃ r, X r = true) ↔ ∃ r, Y r = true) ∧ ((∃ r, Y r = true) → 5 ≤ weight X + weight Y) := by
  revert X Y
  decide +kernel

/-- The branch number of `MixColumns` is five. -/
theorem branch (x : Fin 4 → U8) : ((∃ r, x r ≠ 0#8) ↔ ∃ r, mixCol x r ≠ 0#8) ∧
    ((∃ r, mixCol x r ≠ 0#8) → 5 ≤ weight (fun r => x r != 0#8) + weight (fun r => mixCol x r != 0#8)) := by
  have := pattern (fun r => x r != 0#8) (fun r => mixCol x r != 0#8)
  simp only [bne_eq_false_iff_eq, bne_iff_ne] at this
  apply this
  · exact fun i k h hk => mixCol_one x i k h hk
  · exact fun i j k l hij hkl hx hk hl => mixCol_two x i j k l hij hkl hx hk hl
  · intro i k h hk
    exact unmix_one (mixCol x) i k h ((unmixCol x k).trans hk)
  · intro h j
    rw [← unmixCol x j]
    simp only [h, unmixByte, zero_mul', BitVec.xor_zero]
  · intro h j
    simp only [mixCol_coef, h, mul_zero', BitVec.xor_zero]

/-! ## Patterns of differences -/

/-- Which bytes differ, by row and column. -/
abbrev Pattern := Fin 4 → Fin 4 → Bool

def col (A : Pattern) (c : Fin 4) : Fin 4 → Bool := fun r => A r c
/-- The column that `ShiftRows` makes. -/
def diag (A : Pattern) (c : Fin 4) : Fin 4 → Bool := fun r => A r (c + r)

/-- How the pattern before a substitution leads to that before the next one. -/
def Step (A A' : Pattern) : Prop := ∀ c, ((∃ r, diag A c r = true) ↔ ∃ r, col A' c r = true) ∧
  ((∃ r, col A' c r = true) → 5 ≤ weight (diag A c) + weight (col A' c))

/-- How many bytes differ. -/
def total (A : Pattern) : Nat := ∑ c, weight (col A c)
/-- 1 if something differs. -/
def any (p : Fin 4 → Bool) : Nat := (decide (∃ r, p r = true)).toNat

theorem total_diag (A : Pattern) : ∑ c, weight (diag A c) = total A := by
  unfold total weight
  rw [Finset.sum_comm, Finset.sum_comm (s := Finset.univ) (t := Finset.univ) (f := fun c r => (col A c r).toNat)]
  refine Finset.sum_congr rfl fun r _ => ?_
  exact Equiv.sum_comp (Equiv.addRight r) (fun c => (A r c).toNat)

theorem any_of {p q : Fin 4 → Bool} (h : (∃ r, p r = true) ↔ ∃ r, q r = true) : any p = any q := by
  unfold any
  simp only [h]

theorem any_le_weight (p : Fin 4 → Bool) (hp : (∃ r, p r = true) → 5 ≤ n) : 5 * any p ≤ n := by
  unfold any
  by_cases h : ∃ r, p r = true
  · simpa [h] using hp h
  · simp [h]

theorem toNat_le_any (p : Fin 4 → Bool) (r : Fin 4) : (p r).toNat ≤ any p := by
  unfold any
  cases h : p r
  · simp
  · rw [decide_eq_true ⟨r, h⟩]

theorem two_rounds {A A' : Pattern} (h : Step A A') : 5 * ∑ c, any (col A' c) ≤ total A + total A' := by
  rw [← total_diag A, total, ← Finset.sum_add_distrib, Finset.mul_sum]
  exact Finset.sum_le_sum fun c _ => any_le_weight _ (h c).2

theorem middle {A A' : Pattern} (h : Step A A') (hA : ∃ r c, A r c = true) :
    5 ≤ ∑ c, any (col A c) + ∑ c, any (diag A' c) := by
  obtain ⟨r, c, hrc⟩ := hA
  have hd : diag A (c - r) r = true := by unfold diag; rwa [sub_add_cancel]
  have h5 := (h (c - r)).2 ((h (c - r)).1.1 ⟨r, hd⟩)
  generalize c - r = c' at h5
  have h1 : weight (diag A c') ≤ ∑ c, any (col A c) := by
    rw [← Equiv.sum_comp (Equiv.addLeft c') (fun c => any (col A c))]
    exact Finset.sum_le_sum fun r _ => toNat_le_any (col A (c' + r)) r
  have h2 : weight (col A' c') ≤ ∑ c, any (diag A' c) := by
    rw [← Equiv.sum_comp (Equiv.subLeft c') (fun c => any (diag A' c))]
    refine Finset.sum_le_sum fun r _ => ?_
    refine le_trans (le_of_eq ?_) (toNat_le_any (diag A' (c' - r)) r)
    unfold diag col
    rw [sub_add_cancel]
  omega

theorem four_rounds {A B C D : Pattern} (h1 : Step A B) (h2 : Step B C) (h3 : Step C D) (hB : ∃ r c, B r c = true) :
    25 ≤ total A + total B + total C + total D := by
  have e1 := two_rounds h1
  have e3 := two_rounds h3
  have e2 := middle h2 hB
  have : ∑ c, any (diag C c) = ∑ c, any (col D c) := Finset.sum_congr rfl fun c _ => any_of (h3 c).1
  omega

theorem step_active {A A' : Pattern} (h : Step A A') : (∃ r c, A r c = true) ↔ ∃ r c, A' r c = true := by
  constructor
  · rintro ⟨r, c, hrc⟩
    have hd : diag A (c - r) r = true := by unfold diag; rwa [sub_add_cancel]
    obtain ⟨r', hr'⟩ := (h (c - r)).1.1 ⟨r, hd⟩
    exact ⟨r', _, hr'⟩
  · rintro ⟨r, c, hrc⟩
    obtain ⟨r', hr'⟩ := (h c).1.2 ⟨r, hrc⟩
    exact ⟨r', _, hr'⟩

theorem five {A A' : Pattern} (h : Step A A') (hA : ∃ r c, A' r c = true) : 5 ≤ total A + total A' := by
  have := two_rounds h
  obtain ⟨r, c, hrc⟩ := hA
  have h1 : any (col A' c) = 1 := by unfold any; rw [decide_eq_true ⟨r, hrc⟩]; rfl
  have := Finset.single_le_sum (f := fun c => any (col A' c)) (fun _ _ => Nat.zero_le _) (Finset.mem_univ c)
  simp only [h1] at this
  omega

theorem weight_le (p : Fin 4 → Bool) : weight p ≤ 4 := by revert p; decide +kernel
theorem weight_four (p : Fin 4 → Bool) (h : 4 ≤ weight p) : ∀ r, p r = true := by revert p; decide +kernel
theorem weight_zero (p : Fin 4 → Bool) (h : weight p = 0) : ∀ r, p r = false := by revert p; decide +kernel
theorem weight_single (r : Fin 4) (p : Fin 4 → Bool) (h : ∀ s, p s = decide (s = r)) : weight p = 1 := by
  rw [show p = fun s => decide (s = r) from funext h]
  clear h
  revert r
  decide +kernel

theorem weight_le_sum (f : Fin 4 → Fin 4 → Bool) (c : Fin 4) : weight (f c) ≤ ∑ c, weight (f c) :=
  Finset.single_le_sum (f := fun c => weight (f c)) (fun _ _ => Nat.zero_le _) (Finset.mem_univ c)

theorem sum_four (f : Fin 4 → Nat) (c d : Fin 4) (h : c ≠ d) : f c + f d ≤ ∑ c, f c := by
  rw [Fin.sum_univ_four]
  fin_cases c <;> fin_cases d <;> first | exact absurd rfl h | (simp only [Fin.zero_eta, Fin.mk_one, Fin.reduceFinMk]; omega)

/-- If only one thing is different in all, it is in one column. -/
theorem one_column (f : Fin 4 → Fin 4 → Bool) (h : ∑ c, weight (f c) = 1) :
    ∃ c, weight (f c) = 1 ∧ ∀ d, d ≠ c → ∀ r, f d r = false := by
  have : ∃ c, weight (f c) ≠ 0 := by
    by_contra hn
    push Not at hn
    simp [hn] at h
  obtain ⟨c, hc⟩ := this
  have h1 := weight_le_sum f c
  refine ⟨c, by omega, fun d hd => weight_zero _ ?_⟩
  have := sum_four (fun c => weight (f c)) c d (Ne.symm hd)
  omega

theorem any_false {p : Fin 4 → Bool} (h : ∀ r, p r = false) : ¬ ∃ r, p r = true := by
  rintro ⟨r, hr⟩
  rw [h r] at hr
  cases hr

theorem total_full {A : Pattern} (h : ∀ c, 4 ≤ weight (col A c)) : total A = 16 := by
  have e : ∀ c, weight (col A c) = 4 := fun c => le_antisymm (weight_le _) (h c)
  simp [total, e]

theorem total_column {A : Pattern} (c : Fin 4) (h : ∀ r d, A r d = decide (d = c)) : total A = 4 := by
  rw [show A = fun _ d => decide (d = c) from funext fun r => funext (h r)]
  clear h
  revert c
  decide +kernel

theorem total_diagonal {A : Pattern} (c : Fin 4) (h : ∀ r d, A r (d + r) = decide (d = c)) : total A = 4 := by
  rw [← total_diag, show diag A = fun d _ => decide (d = c) from funext fun d => funext fun r => h r d]
  clear h
  revert c
  decide +kernel

/-- One byte, four bytes, all bytes. -/
theorem spread {A B C : Pattern} (h1 : Step A B) (h2 : Step B C) (hA : total A = 1) : total B = 4 ∧ total C = 16 := by
  rw [← total_diag] at hA
  obtain ⟨c, hc, hz⟩ := one_column (diag A) hA
  have hB : ∀ r d, B r d = decide (d = c) := by
    intro r d
    by_cases hd : d = c
    · subst hd
      have hx : ∃ r, diag A d r = true := by
        by_contra hn
        have : ∀ r, diag A d r = false := fun r => by
          cases e : diag A d r
          · rfl
          · exact absurd ⟨r, e⟩ hn
        rw [show diag A d = fun _ => false from funext this] at hc
        exact absurd hc (by decide +kernel)
      have := (h1 d).2 ((h1 d).1.1 hx)
      rw [decide_eq_true rfl]
      exact weight_four (col B d) (by omega) r
    · rw [decide_eq_false hd]
      cases e : B r d
      · rfl
      · exact absurd ((h1 d).1.2 ⟨r, e⟩) (any_false (hz d hd))
  refine ⟨total_column c hB, total_full fun d => ?_⟩
  have hw : weight (diag B d) = 1 := by
    refine weight_single (c - d) _ fun s => ?_
    unfold diag
    rw [hB, decide_eq_decide, eq_sub_iff_add_eq, add_comm]
  have hx : ∃ r, diag B d r = true := ⟨c - d, by unfold diag; rw [hB]; simp⟩
  have := (h2 d).2 ((h2 d).1.1 hx)
  omega

/-- The same backwards. -/
theorem spread_back {A B C : Pattern} (h1 : Step B A) (h2 : Step C B) (hA : total A = 1) : total B = 4 ∧ total C = 16 := by
  obtain ⟨c, hc, hz⟩ := one_column (col A) hA
  have hB : ∀ r d, B r (d + r) = decide (d = c) := by
    intro r d
    by_cases hd : d = c
    · subst hd
      have hx : ∃ r, col A d r = true := by
        by_contra hn
        have : ∀ r, col A d r = false := fun r => by
          cases e : col A d r
          · rfl
          · exact absurd ⟨r, e⟩ hn
        rw [show col A d = fun _ => false from funext this] at hc
        exact absurd hc (by decide +kernel)
      have := (h1 d).2 hx
      rw [decide_eq_true rfl]
      exact weight_four (diag B d) (by omega) r
    · rw [decide_eq_false hd]
      cases e : B r (d + r)
      · rfl
      · exact absurd ((h1 d).1.1 ⟨r, e⟩) (any_false (hz d hd))
  refine ⟨total_diagonal c hB, ?_⟩
  have hw : ∀ d, weight (col B d) = 1 := by
    intro d
    refine weight_single (d - c) _ fun s => ?_
    have := hB s (d - s)
    rw [sub_add_cancel] at this
    unfold col
    rw [this, decide_eq_decide, sub_eq_iff_eq_add, eq_sub_iff_add_eq, add_comm c s, eq_comm]
  have hx : ∀ d, ∃ r, col B d r = true := fun d => by
    refine ⟨d - c, ?_⟩
    have := hB (d - c) c
    unfold col
    rwa [add_sub_cancel, decide_eq_true rfl] at this
  have : ∑ d, weight (diag C d) = 16 := by
    have e : ∀ d, weight (diag C d) = 4 := fun d => by
      have h5 := (h2 d).2 (hx d)
      have := hw d
      exact le_antisymm (weight_le _) (by omega)
    simp [e]
  rwa [total_diag] at this

/-! ## The patterns of two computations -/

/-- Where two states differ. -/
def pat (p : State × State) : Pattern := fun r c => Spec.Aes.ofBlock p.1 r c != Spec.Aes.ofBlock p.2 r c

theorem mixCol_xor (x y : Fin 4 → U8) (r : Fin 4) : mixCol (fun r => x r ^^^ y r) r = mixCol x r ^^^ mixCol y r := by
  simp only [mixCol_coef, mul_xor]
  ac_rfl

theorem xor_ne_zero (a b : U8) : a ^^^ b ≠ 0#8 ↔ a ≠ b := by simp [BitVec.xor_eq_zero_iff]

/-- One round of encryption. -/
theorem step_enc (key : Vector U8 16) (s t : State) :
    Step (pat (s, t)) (pat (addKey key (mixColumns (shiftRows (substitute s))),
      addKey key (mixColumns (shiftRows (substitute t))))) := by
  intro c
  have hb := branch (fun r => sub (Spec.Aes.ofBlock s r (c + r)) ^^^ sub (Spec.Aes.ofBlock t r (c + r)))
  have hm : ∀ u : State, ∀ r, Spec.Aes.ofBlock (mixColumns (shiftRows (substitute u))) r c =
      mixCol (fun r => sub (Spec.Aes.ofBlock u r (c + r))) r := by
    intro u r
    rw [ofBlock_mixColumns, ofBlock_shiftRows, ofBlock_substitute]
    unfold Spec.Aes.mixColumns Spec.Aes.shiftRows Spec.Aes.subBytes mixCol mixByte
    rw [mul2_eq, mul3_eq]
  have ha : ∀ u : State, ∀ r, Spec.Aes.ofBlock (addKey key u) r c = Spec.Aes.ofBlock u r c ^^^ Spec.Aes.ofBlock key r c := by
    intro u r
    simp [Spec.Aes.ofBlock, addKey]
  have hin : (fun r => (sub (Spec.Aes.ofBlock s r (c + r)) ^^^ sub (Spec.Aes.ofBlock t r (c + r))) != 0#8) =
      diag (pat (s, t)) c := by
    funext r
    unfold diag pat
    rw [Bool.eq_iff_iff, bne_iff_ne, bne_iff_ne, xor_ne_zero]
    exact ⟨fun h e => h (congrArg sub e), fun h e => h (by have := congrArg unsub e; rwa [unsub_sub, unsub_sub] at this)⟩
  have hout : (fun r => mixCol (fun r => sub (Spec.Aes.ofBlock s r (c + r)) ^^^ sub (Spec.Aes.ofBlock t r (c + r))) r != 0#8) =
      col (pat (addKey key (mixColumns (shiftRows (substitute s))), addKey key (mixColumns (shiftRows (substitute t))))) c := by
    funext r
    unfold col pat
    rw [mixCol_xor, ← hm s, ← hm t, Bool.eq_iff_iff, bne_iff_ne, bne_iff_ne, xor_ne_zero, ha, ha]
    exact ⟨fun h e => h ((BitVec.xor_left_inj _).1 e), fun h e => h (by rw [e])⟩
  simp only [← bne_iff_ne] at hb
  have hin' := fun r => congrFun hin r
  have hout' := fun r => congrFun hout r
  simp only [hin', hout'] at hb
  exact hb

/-- One round of decryption, seen from its end. -/
theorem step_dec (key : Vector U8 16) (s t : State) :
    Step (pat (unshiftRows (unmixColumns (addKey key (unsubstitute s))), unshiftRows (unmixColumns (addKey key (unsubstitute t)))))
      (pat (s, t)) := by
  have h := step_enc key (unsubstitute (unshiftRows (unmixColumns (addKey key (unsubstitute s)))))
    (unsubstitute (unshiftRows (unmixColumns (addKey key (unsubstitute t)))))
  simp only [substitute_unsubstitute, shiftRows_unshiftRows, mixColumns_unmixColumns, addKey_addKey] at h
  have e : ∀ a b : State, pat (unsubstitute a, unsubstitute b) = pat (a, b) := by
    intro a b
    funext r c
    unfold pat
    rw [Bool.eq_iff_iff, bne_iff_ne, bne_iff_ne]
    simp only [Spec.Aes.ofBlock, unsubstitute, Vector.getElem_map]
    exact ⟨fun h e => h (congrArg unsub e), fun h e => h (by have := congrArg sub e; rwa [sub_unsub, sub_unsub] at this)⟩
  rwa [e, e] at h

/-! ## The S-box -/

theorem invOf_invOf : ∀ b : U8, invOf (invOf b) = b := by decide +kernel

theorem transformAffine_inj {p q : U8} (h : transformAffine p = transformAffine q) : p = q := by
  rw [← invOf_invOf p, ← invOf_invOf q, ← sub_eq_affine, ← sub_eq_affine] at h
  have := congrArg unsub h
  rw [unsub_sub, unsub_sub] at this
  rw [← invOf_invOf p, this, invOf_invOf]

theorem transformAffine_xor (p q : U8) : transformAffine (p ^^^ q) = transformAffine p ^^^ transformAffine q ^^^ 0x63#8 := by
  apply BitVec.eq_of_getLsbD_eq
  intro i hi
  rw [BitVec.getLsbD_xor, BitVec.getLsbD_xor, affine_transform _ i hi, affine_transform _ i hi, affine_transform _ i hi]
  simp only [BitVec.getLsbD_xor]
  generalize (0x63#8).getLsbD i = z
  generalize p.getLsbD i = a0, p.getLsbD ((i + 4) % 8) = a1, p.getLsbD ((i + 5) % 8) = a2, p.getLsbD ((i + 6) % 8) = a3,
    p.getLsbD ((i + 7) % 8) = a4
  generalize q.getLsbD i = b0, q.getLsbD ((i + 4) % 8) = b1, q.getLsbD ((i + 5) % 8) = b2, q.getLsbD ((i + 6) % 8) = b3,
    q.getLsbD ((i + 7) % 8) = b4
  revert z a0 a1 a2 a3 a4 b0 b1 b2 b3 b4
  decide +kernel

/-- Equal differences behind the S-box come from equal differences of inverses. -/
theorem sub_xor {p q r s : U8} (h : sub p ^^^ sub q = sub r ^^^ sub s) : invOf p ^^^ invOf q = invOf r ^^^ invOf s := by
  apply transformAffine_inj
  rw [transformAffine_xor, transformAffine_xor, ← sub_eq_affine, ← sub_eq_affine, ← sub_eq_affine, ← sub_eq_affine, h]

theorem xor_eq_zero' {a b : U8} (h : a ^^^ b = 0#8) : a = b := by simpa [BitVec.xor_eq_zero_iff] using h

/-- If two inputs, not 0 and not the difference, lead to the same difference of inverses, they are the same pair. -/
theorem inverse_pairs {a x y : U8} (ha : a ≠ 0#8) (hx : x ≠ 0#8) (hxa : x ≠ a) (hy : y ≠ 0#8) (hya : y ≠ a)
    (h : invOf (x ^^^ a) ^^^ invOf x = invOf (y ^^^ a) ^^^ invOf y) : y = x ∨ y = x ^^^ a := by
  have hx' : x ^^^ a ≠ 0#8 := (xor_ne_zero _ _).2 hxa
  have hy' : y ^^^ a ≠ 0#8 := (xor_ne_zero _ _).2 hya
  have e1 : φ x * φ (invOf x) = 1 := by rw [← φ_mul, mul_invOf x hx, φ_one]
  have e2 : φ y * φ (invOf y) = 1 := by rw [← φ_mul, mul_invOf y hy, φ_one]
  have e3 : (φ x + φ a) * φ (invOf (x ^^^ a)) = 1 := by rw [← φ_xor, ← φ_mul, mul_invOf _ hx', φ_one]
  have e4 : (φ y + φ a) * φ (invOf (y ^^^ a)) = 1 := by rw [← φ_xor, ← φ_mul, mul_invOf _ hy', φ_one]
  have e5 := congrArg φ h
  simp only [φ_xor] at e5
  have two := Q_two
  have hx2 : φ a = (φ (invOf (x ^^^ a)) + φ (invOf x)) * (φ x * (φ x + φ a)) := by
    linear_combination - φ x * e3 - (φ x + φ a) * e1 - φ x * two
  have hy2 : φ a = (φ (invOf (x ^^^ a)) + φ (invOf x)) * (φ y * (φ y + φ a)) := by
    rw [e5]
    linear_combination - φ y * e4 - (φ y + φ a) * e2 - φ y * two
  have hd : mul (invOf (x ^^^ a) ^^^ invOf x) (mul (x ^^^ y) (x ^^^ y ^^^ a)) = 0#8 := by
    apply φ_injective
    simp only [φ_mul, φ_xor, φ_zero]
    linear_combination hy2 - hx2 + (φ (invOf (x ^^^ a)) + φ (invOf x)) * (φ x * φ y + φ y * φ y + φ y * φ a) * two
  have hne : invOf (x ^^^ a) ^^^ invOf x ≠ 0#8 := by
    intro hz
    apply ha
    apply φ_eq_zero
    have := congrArg φ hz
    rw [φ_xor, φ_zero] at this
    rw [hx2, this, zero_mul]
  have h0 := mul_cancel hne hd
  by_cases hxy : x ^^^ y = 0#8
  · exact Or.inl (xor_eq_zero' hxy).symm
  · right
    have h1 := mul_cancel hxy h0
    have h2 := xor_eq_zero' h1
    rw [← h2, ← BitVec.xor_assoc, BitVec.xor_self, BitVec.zero_xor]

/-- The S-box is differentially 4-uniform. -/
theorem sbox_uniform (a b : U8) (ha : a ≠ 0#8) : ∃ x₁, ∀ x, sub (x ^^^ a) ^^^ sub x = b →
    x = 0#8 ∨ x = a ∨ x = x₁ ∨ x = x₁ ^^^ a := by
  by_cases h : ∃ x, x ≠ 0#8 ∧ x ≠ a ∧ sub (x ^^^ a) ^^^ sub x = b
  · obtain ⟨x₁, h1, h2, h3⟩ := h
    refine ⟨x₁, fun x hx => ?_⟩
    by_cases hx0 : x = 0#8
    · exact Or.inl hx0
    by_cases hxa : x = a
    · exact Or.inr (Or.inl hxa)
    exact Or.inr (Or.inr (inverse_pairs ha h1 h2 hx0 hxa (sub_xor (h3.trans hx.symm))))
  · push Not at h
    refine ⟨0#8, fun x hx => ?_⟩
    by_cases hx0 : x = 0#8
    · exact Or.inl hx0
    by_cases hxa : x = a
    · exact Or.inr (Or.inl hxa)
    exact absurd hx (h x hx0 hxa)

end Verif.Model.Aes
