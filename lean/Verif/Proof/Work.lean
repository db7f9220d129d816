import Verif.Model.Work
import Verif.Proof.Rsa
import Mathlib.Data.Nat.Fib.Basic
import Mathlib.Data.Nat.Digits.Defs

/-! # Lemmas about the counting functions -/

namespace Verif.Model.Work
open Verif Verif.Model.Big Verif.Model.Rsa Verif.Spec.Big

/-! ## Forgetting the counts -/

theorem erase_bind {α β : Type} (x : W α) (f : α → W β) : erase (x >>= f) = (erase x >>= fun a => erase (f a)) := by
  show erase (W.bind x f) = _
  rcases x with e | ⟨a, c⟩
  · rfl
  · simp only [W.bind, erase, bind, Except.bind]
    rcases f a with e | ⟨b, d⟩ <;> rfl

theorem erase_pure {α : Type} (a : α) : erase (pure a : W α) = .ok a := rfl

theorem erase_free {α : Type} (x : R α) : erase (free x) = x := by cases x <;> rfl

theorem erase_ite {α : Type} (p : Prop) [Decidable p] (x y : W α) : erase (if p then x else y) = if p then erase x else erase y := by
  split <;> rfl

theorem erase_remLoopW (cap : Nat → Nat) (x m : BigUint) (n : Nat) : erase (remLoopW cap x m n) = remLoop cap x m n := by
  induction n generalizing x m with
  | zero => rfl
  | succ n ih =>
    unfold remLoopW remLoop
    simp only [erase_bind, erase_free, ih]
    simp only [tickStep, erase, bind, Except.bind]
    rcases cmp m x with e | o
    · rfl
    · rcases o <;> rfl

theorem erase_remW (cap : Nat → Nat) (x m : BigUint) : erase (remW cap x m) = rem cap x m := by
  unfold remW rem
  simp only [erase_bind, erase_free, erase_ite, erase_remLoopW, erase_pure]
  simp only [tickRem, erase, bind, Except.bind]
  rcases bitsUsed m with e | bm
  · rfl
  · rcases bitsUsed x with e | bx
    · rfl
    · rfl

theorem erase_mulModLoopW (cap : Nat → Nat) (m : BigUint) (fuel : Nat) (r a b : BigUint) :
    erase (mulModLoopW cap m fuel r a b) = mulModLoop cap m fuel r a b := by
  induction fuel generalizing r a b with
  | zero => rfl
  | succ fuel ih =>
    unfold mulModLoopW mulModLoop
    simp only [erase_bind, erase_free, erase_ite, erase_remW, erase_pure, ih]
    rcases bitsUsed b with e | bb
    · rfl
    · simp only [bind, Except.bind]
      split
      · rcases isSet b 0 with e | s
        · rfl
        · rcases s
          · rfl
          · rcases add r a with e | v <;> rfl
      · rfl

theorem erase_mulModW (cap : Nat → Nat) (a b m : BigUint) : erase (mulModW cap a b m) = mulMod cap a b m := by
  unfold mulModW mulMod
  simp only [erase_bind, erase_free, erase_mulModLoopW]
  rfl

theorem erase_powModLoopW (cap : Nat → Nat) (p m : BigUint) (k i : Nat) (r a : BigUint) :
    erase (powModLoopW cap p m k i r a) = powModLoop cap p m k i r a := by
  induction k generalizing i r a with
  | zero => rfl
  | succ k ih =>
    unfold powModLoopW powModLoop
    simp only [erase_bind, erase_free, erase_ite, erase_mulModW, erase_pure, ih]
    rcases isSet p i with e | s
    · rfl
    · rcases s <;> rfl

theorem erase_powModW (cap : Nat → Nat) (a p m : BigUint) : erase (powModW cap a p m) = powMod cap a p m := by
  unfold powModW powMod
  simp only [erase_bind, erase_free, erase_powModLoopW]

/-- If a counting computation erases to a value then it returns that value with some count. -/
theorem exists_count {α : Type} {x : W α} {a : α} (h : erase x = .ok a) : ∃ c, x = .ok (a, c) := by
  rcases x with e | ⟨b, c⟩
  · cases h
  · cases h; exact ⟨c, rfl⟩

theorem bind_ok {α β : Type} {x : W α} {f : α → W β} {b : β} {c : Count} (h : (x >>= f) = .ok (b, c)) :
    ∃ a c1 c2, x = .ok (a, c1) ∧ f a = .ok (b, c2) ∧ c = c1.plus c2 := by
  change W.bind x f = _ at h
  rcases x with e | ⟨a, c1⟩
  · cases h
  · simp only [W.bind] at h
    rcases hf : f a with e | ⟨b', c2⟩
    · rw [hf] at h; cases h
    · rw [hf] at h
      cases h
      exact ⟨a, c1, c2, rfl, hf, rfl⟩

theorem free_ok {α : Type} {x : R α} {a : α} {c : Count} (h : free x = .ok (a, c)) : x = .ok a ∧ c = ⟨0, 0, 0⟩ := by
  rcases x with e | a'
  · cases h
  · cases h; exact ⟨rfl, rfl⟩

theorem free_bind {α β : Type} (a : α) (f : α → W β) : (free (.ok a) >>= f) = f a := by
  show W.bind (.ok (a, ⟨0, 0, 0⟩)) f = f a
  simp only [W.bind]
  rcases f a with e | ⟨b, c⟩
  · rfl
  · simp [Count.plus]
    rfl

/-! ## Counting -/

theorem remLoopW_count {cap : Nat → Nat} {x m z : BigUint} {n : Nat} {c : Count} (h : remLoopW cap x m n = .ok (z, c)) :
    c = ⟨0, 0, n⟩ := by
  induction n generalizing x m c with
  | zero => cases h; rfl
  | succ n ih =>
    unfold remLoopW at h
    obtain ⟨_, c1, c2, h1, h2, rfl⟩ := bind_ok h
    obtain ⟨_, c3, c4, h3, h4, rfl⟩ := bind_ok h2
    obtain ⟨_, c5, c6, h5, h6, rfl⟩ := bind_ok h4
    cases h1
    rw [(free_ok h3).2, (free_ok h5).2, ih h6]
    simp [Count.plus, Nat.add_comm]

/-- One call of `%=`: no rounds for a longer divisor, otherwise one more than the difference of the lengths in bits. -/
theorem remW_count {cap : Nat → Nat} {a y : Nat} {z : BigUint} {c : Count} (ha : (big a).bytes.length < 2 ^ 29)
    (hy : (big y).bytes.length < 2 ^ 29) (h : remW cap (big a) (big y) = .ok (z, c)) :
    c = ⟨0, 1, a.size + 1 - y.size⟩ := by
  unfold remW at h
  obtain ⟨_, c1, c2, h1, h2, rfl⟩ := bind_ok h
  obtain ⟨by', c3, c4, h3, h4, rfl⟩ := bind_ok h2
  obtain ⟨ba, c5, c6, h5, h6, rfl⟩ := bind_ok h4
  cases h1
  obtain ⟨h3, rfl⟩ := free_ok h3
  obtain ⟨h5, rfl⟩ := free_ok h5
  rw [bitsUsed_norm (norm_big y) hy, val_big] at h3
  rw [bitsUsed_norm (norm_big a) ha, val_big] at h5
  cases h3
  cases h5
  by_cases hlt : y.size > a.size
  · rw [if_pos hlt] at h6
    cases h6
    simp only [Count.plus, Nat.add_zero]
    congr 1
    omega
  · rw [if_neg hlt] at h6
    obtain ⟨d, c7, c8, h7, h8, rfl⟩ := bind_ok h6
    obtain ⟨h7, rfl⟩ := free_ok h7
    simp only [bitsUsed_norm (norm_big y) hy, bitsUsed_norm (norm_big a) ha, val_big, bind, Except.bind] at h7
    unfold subU at h7
    rw [if_pos (by omega)] at h7
    cases h7
    rw [remLoopW_count h8]
    simp only [Count.plus, Nat.add_zero, Nat.zero_add]
    congr 1
    omega

/-- The number of ones in binary. -/
abbrev ones (n : Nat) : Nat := (Nat.digits 2 n).sum

theorem ones_step (n : Nat) : ones n = n % 2 + ones (n / 2) := by
  rcases Nat.eq_zero_or_pos n with rfl | h
  · rfl
  · unfold ones
    rw [Nat.digits_def' (by omega) h, List.sum_cons]

theorem size_step (n : Nat) (h : n ≠ 0) : n.size = (n / 2).size + 1 := by
  conv => lhs; rw [← Nat.bit_bodd_div2 n, Nat.size_bit (by rw [Nat.bit_bodd_div2]; exact h)]
  rw [Nat.div2_val]

theorem ones_le_size (n : Nat) : ones n ≤ n.size := by
  induction n using Nat.strong_induction_on with
  | _ n ih =>
    rcases Nat.eq_zero_or_pos n with rfl | h
    · rfl
    · rw [ones_step, size_step n (by omega)]
      have := ih (n / 2) (by omega)
      omega

theorem size_two_mul_le (a : Nat) : (a * 2).size ≤ a.size + 1 := by
  rw [Nat.size_le, Nat.pow_succ]
  have := Nat.lt_size_self a
  omega

theorem mulModLoopW_count {cap : Nat → Nat} (hc : CapOk cap) (m : Nat) (hm : 0 < m) (hfm : Fits m) (fuel r a b : Nat)
    (hr : r < m) (hfa : Fits a) (hfb : Fits b) (z : BigUint) (c : Count)
    (h : mulModLoopW cap (big m) fuel (big r) (big a) (big b) = .ok (z, c)) :
    c.muls = 0 ∧ c.rems = b.size + ones b ∧ c.steps ≤ 2 * c.rems + 2 * (a.size - m.size) := by
  induction fuel generalizing r a b c with
  | zero => cases h
  | succ fuel ih =>
    unfold mulModLoopW at h
    obtain ⟨bb, c1, c2, h1, h2, rfl⟩ := bind_ok h
    obtain ⟨h1, rfl⟩ := free_ok h1
    rw [bitsUsed_norm (norm_big b) (by have := hfb.length; omega), val_big] at h1
    cases h1
    by_cases h0 : b = 0
    · subst h0
      rw [if_neg (by simp)] at h2
      cases h2
      simp [Count.plus, ones]
    · have hsz : b.size ≠ 0 := by rw [Ne, Nat.size_eq_zero]; exact h0
      rw [if_pos hsz] at h2
      obtain ⟨r', c5, c6, h5, h6, rfl⟩ := bind_ok h2
      obtain ⟨s, c3, c4, h3, h4, rfl⟩ := bind_ok h5
      obtain ⟨h3, rfl⟩ := free_ok h3
      rw [isSet_norm (norm_big b) (by have := hfb.length; omega), val_big] at h3
      cases h3
      obtain ⟨a', c7, c8, h7, h8, rfl⟩ := bind_ok h6
      obtain ⟨b', c9, c10, h9, h10, rfl⟩ := bind_ok h8
      obtain ⟨h9, rfl⟩ := free_ok h9
      rw [shr_big _ _ (by omega), Nat.pow_one] at h9
      cases h9
      rw [shl_big_small _ _ (by omega), Nat.pow_one] at h7
      have hl2 := length_double hfa (show a * 2 ≤ 2 * a by omega)
      have hlm := hfm.length
      have e7 := remW_count (by omega) (by omega) h7
      have v7 : erase (remW cap (big (a * 2)) (big m)) = .ok (big (a * 2 % m)) := by
        rw [erase_remW]; exact rem_eq hc _ _ hm hl2 (by omega)
      rw [h7] at v7
      cases v7
      have hfa' : Fits (a * 2 % m) := hfm.mono (Nat.mod_lt _ hm).le
      have hfb' : Fits (b / 2) := hfb.mono (by omega)
      have hsa : (a * 2 % m).size ≤ m.size := Nat.size_le_size (Nat.mod_lt _ hm).le
      have hs2 := size_two_mul_le a
      have key : ∃ r2, r2 < m ∧ r' = big r2 ∧ c4.muls = 0 ∧ c4.rems = b % 2 ∧
          c4.steps ≤ 2 * (b % 2) + (a.size - m.size) := by
        by_cases hbit : b.testBit 0 = true
        · have hodd : b % 2 = 1 := by rw [Nat.testBit_zero] at hbit; simpa using hbit
          rw [if_pos hbit] at h4
          obtain ⟨ra, d1, d2, g1, g2, rfl⟩ := bind_ok h4
          obtain ⟨g1, rfl⟩ := free_ok g1
          simp only [add_eq, val_big] at g1
          cases g1
          have hl : (big (r + a)).bytes.length ≤ 2 ^ 28 := by
            rcases Nat.le_total a m with h | h
            · exact length_double hfm (by omega)
            · exact length_double hfa (by omega)
          have e := remW_count (by omega) (by omega) g2
          have v : erase (remW cap (big (r + a)) (big m)) = .ok (big ((r + a) % m)) := by
            rw [erase_remW]; exact rem_eq hc _ _ hm hl (by omega)
          rw [g2] at v
          cases v
          refine ⟨_, Nat.mod_lt _ hm, rfl, ?_, ?_, ?_⟩
          · rw [e]; rfl
          · rw [e, hodd]; rfl
          · rw [e, hodd]
            simp only [Count.plus]
            rcases Nat.le_total a m with h | h
            · have : (r + a).size ≤ m.size + 1 := by
                refine Nat.le_trans (Nat.size_le_size (show r + a ≤ m * 2 by omega)) (size_two_mul_le m)
              omega
            · have : (r + a).size ≤ a.size + 1 := by
                refine Nat.le_trans (Nat.size_le_size (show r + a ≤ a * 2 by omega)) (size_two_mul_le a)
              have := Nat.size_le_size h
              omega
        · have heven : b % 2 = 0 := by rw [Nat.testBit_zero] at hbit; simp at hbit; omega
          rw [if_neg hbit] at h4
          cases h4
          exact ⟨r, hr, rfl, rfl, heven.symm, by simp⟩
      obtain ⟨r2, hr2, rfl, k1, k2, k3⟩ := key
      obtain ⟨i1, i2, i3⟩ := ih r2 (a * 2 % m) (b / 2) hr2 hfa' hfb' c10 h10
      have hss := size_step b h0
      have hos := ones_step b
      have m7 : c7.muls = 0 := by rw [e7]
      have r7 : c7.rems = 1 := by rw [e7]
      have s7 : c7.steps = (a * 2).size + 1 - m.size := by rw [e7]
      simp only [Count.plus]
      refine ⟨?_, ?_, ?_⟩ <;> omega

theorem mulModW_count {cap : Nat → Nat} (hc : CapOk cap) (a b m : Nat) (hm : 0 < m) (hfm : Fits m) (hfa : Fits a)
    (hfb : Fits b) : ∃ c, mulModW cap (big a) (big b) (big m) = .ok (big (a * b % m), c) ∧
      c.muls = 1 ∧ c.rems = b.size + ones b ∧ c.steps ≤ 2 * c.rems + 2 * (a.size - m.size) := by
  obtain ⟨c, h⟩ := exists_count ((erase_mulModW cap (big a) (big b) (big m)).trans (mulMod_ok hc a b m hm hfm hfa hfb))
  refine ⟨c, h, ?_⟩
  unfold mulModW at h
  obtain ⟨_, c1, c2, h1, h2, rfl⟩ := bind_ok h
  obtain ⟨z, c3, c4, h3, h4, rfl⟩ := bind_ok h2
  obtain ⟨h3, rfl⟩ := free_ok h3
  rw [fromU128_eq] at h3
  cases h3
  cases h1
  obtain ⟨i1, i2, i3⟩ := mulModLoopW_count hc m hm hfm _ 0 a b hm hfa hfb _ c4 h4
  simp only [Count.plus]
  refine ⟨?_, ?_, ?_⟩ <;> omega

/-- What one round of the loop of `pow_mod` costs in calls of `%=`. -/
def roundCost (n : Nat) : Nat := n.size + ones n

theorem powModLoopW_count {cap : Nat → Nat} (hc : CapOk cap) (p m : Nat) (hm : 0 < m) (hfm : Fits m)
    (hlp : (big p).bytes.length < 2 ^ 29) (k i r a : Nat) (hr : r < m) (hfa : Fits a) :
    ∃ c, powModLoopW cap (big p) (big m) k i (big r) (big a) = .ok (big (r * a ^ (p / 2 ^ i % 2 ^ k) % m), c) ∧
      c.muls = k + ones (p / 2 ^ i % 2 ^ k) ∧
      c.rems ≤ 2 * m.size * c.muls + 4 * (a.size - m.size) ∧
      (a < m → c.rems = ∑ j ∈ Finset.range k, (1 + (p / 2 ^ (i + j)) % 2) * roundCost (a ^ 2 ^ j % m)) ∧
      c.steps ≤ 2 * c.rems + 2 * (a.size - m.size) := by
  induction k generalizing i r a with
  | zero =>
    refine ⟨⟨0, 0, 0⟩, ?_, ?_⟩
    · simp [powModLoopW, Nat.mod_one, Nat.mod_eq_of_lt hr]; rfl
    · simp [Nat.mod_one, ones]
  | succ k ih =>
    have hex : p / 2 ^ i % 2 ^ (k + 1) = 2 * (p / 2 ^ (i + 1) % 2 ^ k) + p / 2 ^ i % 2 := by
      rw [Nat.pow_succ', Nat.mod_mul, Nat.div_div_eq_div_mul, ← Nat.pow_succ,
        Nat.add_comm, Nat.succ_eq_add_one]
    have hones : ones (p / 2 ^ i % 2 ^ (k + 1)) = p / 2 ^ i % 2 + ones (p / 2 ^ (i + 1) % 2 ^ k) := by
      rw [ones_step, hex]
      have hb : p / 2 ^ i % 2 < 2 := Nat.mod_lt _ (by omega)
      generalize p / 2 ^ i % 2 = b at hb
      generalize p / 2 ^ (i + 1) % 2 ^ k = y
      rw [show (2 * y + b) % 2 = b by omega, show (2 * y + b) / 2 = y by omega]
    obtain ⟨c, h⟩ := exists_count ((erase_powModLoopW cap (big p) (big m) (k + 1) i (big r) (big a)).trans
      (powModLoop_ok hc p m hm hfm hlp (k + 1) i r a hr hfa))
    refine ⟨c, h, ?_⟩
    unfold powModLoopW at h
    obtain ⟨r', c1, c2, h1, h2, rfl⟩ := bind_ok h
    obtain ⟨a', c3, c4, h3, h4, rfl⟩ := bind_ok h2
    obtain ⟨d, g1, g2, g3, g4⟩ := mulModW_count hc a a m hm hfm hfa hfa
    rw [g1] at h3
    cases h3
    have hfa' : Fits (a * a % m) := hfm.mono (Nat.mod_lt _ hm).le
    have hs' : (a * a % m).size ≤ m.size := Nat.size_le_size (Nat.mod_lt _ hm).le
    have hbit : p.testBit i = decide (p / 2 ^ i % 2 = 1) := Nat.testBit_eq_decide_div_mod_eq
    have key : ∃ r2, r2 < m ∧ r' = big r2 ∧ c1.muls = p / 2 ^ i % 2 ∧ c1.rems = (p / 2 ^ i % 2) * roundCost a ∧
        c1.steps ≤ 2 * c1.rems := by
      obtain ⟨s, e1, e2, f1, f2, rfl⟩ := bind_ok h1
      obtain ⟨f1, rfl⟩ := free_ok f1
      rw [isSet_norm (norm_big p) hlp, val_big] at f1
      cases f1
      by_cases hb : p / 2 ^ i % 2 = 1
      · rw [if_pos (by rw [hbit]; simpa using hb)] at f2
        obtain ⟨d', g1', g2', g3', g4'⟩ := mulModW_count hc r a m hm hfm (hfm.mono hr.le) hfa
        rw [g1'] at f2
        cases f2
        have := Nat.size_le_size hr.le
        refine ⟨_, Nat.mod_lt _ hm, rfl, ?_, ?_, ?_⟩ <;> simp only [Count.plus, roundCost, hb] <;> omega
      · rw [if_neg (by rw [hbit]; simpa using hb)] at f2
        cases f2
        have hb0 : p / 2 ^ i % 2 = 0 := by omega
        exact ⟨r, hr, rfl, by rw [hb0]; rfl, by rw [hb0, Nat.zero_mul]; rfl, by simp [Count.plus]⟩
    obtain ⟨r2, hr2, rfl, k1, k2, k3⟩ := key
    obtain ⟨c', i1, i2, i3, i4, i5⟩ := ih (i + 1) r2 (a * a % m) hr2 hfa'
    rw [i1] at h4
    have hcc : c' = c4 := by
      have := Except.ok.inj h4
      exact (Prod.ext_iff.1 this).2
    subst hcc
    have hcost : roundCost a ≤ 2 * m.size + 2 * (a.size - m.size) := by
      have := ones_le_size a
      unfold roundCost; omega
    have hcost' : c3.rems = roundCost a := g3
    have hb2 : p / 2 ^ i % 2 < 2 := Nat.mod_lt _ (by omega)
    simp only [Count.plus]
    refine ⟨by omega, ?_, ?_, ?_⟩
    · rw [k2, hcost']
      have hδ : (a * a % m).size - m.size = 0 := by omega
      rw [hδ] at i3
      have : c1.muls + (c3.muls + c'.muls) = p / 2 ^ i % 2 + 1 + c'.muls := by omega
      rw [this]
      generalize p / 2 ^ i % 2 = b at *
      have hb : b = 0 ∨ b = 1 := by omega
      rcases hb with rfl | rfl
      · rw [Nat.mul_add, Nat.mul_add]; omega
      · rw [Nat.mul_add, Nat.mul_add]; omega
    · intro ha
      rw [i4 (Nat.mod_lt _ hm), k2, hcost', Finset.sum_range_succ', Nat.add_zero, Nat.pow_zero, Nat.pow_one,
        Nat.mod_eq_of_lt ha]
      have : ∀ j, a ^ 2 ^ (j + 1) % m = (a * a % m) ^ 2 ^ j % m := by
        intro j
        rw [← Nat.pow_mod, Nat.pow_succ', Nat.pow_mul, Nat.pow_two]
      have hsum : ∑ j ∈ Finset.range k, (1 + p / 2 ^ (i + (j + 1)) % 2) * roundCost (a ^ 2 ^ (j + 1) % m) =
          ∑ j ∈ Finset.range k, (1 + p / 2 ^ (i + 1 + j) % 2) * roundCost ((a * a % m) ^ 2 ^ j % m) := by
        refine Finset.sum_congr rfl fun j _ => ?_
        rw [this, show i + (j + 1) = i + 1 + j by omega]
      rw [hsum]
      ring
    · omega

theorem powModW_count {cap : Nat → Nat} (hc : CapOk cap) (a p m : Nat) (hm : 2 ≤ m) (hfm : Fits m) (hfa : Fits a)
    (hp : p.size ≤ 2 ^ 32 - 8) : ∃ c, powModW cap (big a) (big p) (big m) = .ok (big (a ^ p % m), c) ∧
      c.muls = p.size + ones p ∧
      c.rems ≤ 2 * m.size * c.muls + 4 * (a.size - m.size) ∧
      (a < m → c.rems = ∑ j ∈ Finset.range p.size, (1 + (p / 2 ^ j) % 2) * roundCost (a ^ 2 ^ j % m)) ∧
      c.steps ≤ 2 * c.rems + 2 * (a.size - m.size) := by
  have hlp : (big p).bytes.length < 2 ^ 29 := by rw [length_big]; omega
  obtain ⟨c, h, h1, h2, h3, h4⟩ := powModLoopW_count hc p m (by omega) hfm hlp p.size 0 1 a (by omega) hfa
  rw [Nat.pow_zero, Nat.div_one, Nat.mod_eq_of_lt (Nat.lt_size_self p)] at h h1
  rw [Nat.one_mul] at h
  simp only [Nat.zero_add] at h3
  refine ⟨c, ?_, h1, h2, h3, h4⟩
  unfold powModW
  simp only [fromU128_eq, bitsUsed_norm (norm_big p) hlp, val_big]
  rw [free_bind, free_bind]
  have h' : powModLoopW cap (big p) (big m) p.size 0 (big (BitVec.toNat 1#128)) (big a) = .ok (big (a ^ p % m), c) := h
  exact h'

/-! ## The extended Euclidean algorithm -/

theorem inverseLoopW_erase (fuel r newR : Nat) (t newT : Int) :
    (inverseLoopW fuel r newR t newT).map Prod.fst = inverseLoop fuel r newR t newT := by
  induction fuel generalizing r newR t newT with
  | zero => rfl
  | succ fuel ih =>
    unfold inverseLoopW inverseLoop
    by_cases h : newR ≠ 0
    · rw [if_pos h, if_pos h]
      simp only [← ih, bind, Except.bind]
      rcases divU r newR with e | q
      · rfl
      simp only
      rcases mulU128 q newR with e | a
      · rfl
      simp only
      rcases subU r a with e | b
      · rfl
      simp only
      rcases i128 (asI128 q * newT) with e | c
      · rfl
      simp only
      rcases i128 (t - c) with e | d
      · rfl
      simp only
      rcases inverseLoopW fuel newR b newT d with e | ⟨x, k⟩ <;> rfl
    · rw [if_neg h, if_neg h]; rfl

theorem inverseLoopW_step {fuel r newR : Nat} {t newT : Int} {x : Nat × Int} {k : Nat} (h0 : newR ≠ 0)
    (h : inverseLoopW (fuel + 1) r newR t newT = .ok (x, k)) :
    ∃ t' j, inverseLoopW fuel newR (r % newR) newT t' = .ok (x, j) ∧ k = j + 1 := by
  unfold inverseLoopW at h
  rw [if_pos h0] at h
  unfold divU at h
  rw [if_neg h0] at h
  simp only [bind, Except.bind] at h
  rcases hm : mulU128 (r / newR) newR with e | a <;> rw [hm] at h
  · cases h
  simp only at h
  unfold mulU128 at hm
  split at hm
  · cases hm
    rcases hs : subU r (r / newR * newR) with e | b <;> rw [hs] at h
    · cases h
    simp only at h
    have hb : b = r % newR := by
      unfold subU at hs
      split at hs
      · cases hs
        have := Nat.div_add_mod r newR
        rw [Nat.mul_comm] at this
        omega
      · cases hs
    subst hb
    rcases h1 : i128 (asI128 (r / newR) * newT) with e | c <;> rw [h1] at h
    · cases h
    simp only at h
    rcases h2 : i128 (t - c) with e | d <;> rw [h2] at h
    · cases h
    simp only at h
    rcases hl : inverseLoopW fuel newR (r % newR) newT d with e | ⟨y, j⟩ <;> rw [hl] at h
    · cases h
    · cases h
      exact ⟨d, j, hl, rfl⟩
  · cases hm

/-- Lamé: `k` rounds need numbers as large as Fibonacci numbers. -/
theorem inverseLoopW_lame {fuel r newR : Nat} {t newT : Int} {x : Nat × Int} {k : Nat} (hlt : newR < r)
    (h : inverseLoopW fuel r newR t newT = .ok (x, k)) :
    (k ≠ 0 → Nat.fib (k + 1) ≤ newR) ∧ Nat.fib (k + 2) ≤ r := by
  induction fuel generalizing r newR t newT k with
  | zero => cases h
  | succ fuel ih =>
    by_cases h0 : newR = 0
    · subst h0
      unfold inverseLoopW at h
      rw [if_neg (by simp)] at h
      cases h
      exact ⟨fun h => absurd rfl h, by simp [Nat.fib_two]; omega⟩
    · obtain ⟨t', j, hj, rfl⟩ := inverseLoopW_step h0 h
      obtain ⟨i1, i2⟩ := ih (Nat.mod_lt _ (Nat.pos_of_ne_zero h0)) hj
      refine ⟨fun _ => i2, ?_⟩
      rw [show j + 1 + 2 = (j + 1) + 2 from rfl, Nat.fib_add_two]
      have hq : 1 ≤ r / newR := Nat.div_pos hlt.le (Nat.pos_of_ne_zero h0)
      have hd := Nat.div_add_mod r newR
      have hmul : newR * 1 ≤ newR * (r / newR) := Nat.mul_le_mul_left _ hq
      by_cases hj0 : j = 0
      · subst hj0
        simp only [Nat.zero_add] at *
        have f1 : Nat.fib 1 = 1 := rfl
        have f2 : Nat.fib 2 = 1 := rfl
        rw [f1, f2]
        omega
      · have := i1 hj0
        have e : j + 1 + 1 = j + 2 := rfl
        rw [e]
        omega

theorem inverseLoopW_rounds {fuel n a : Nat} {t newT : Int} {x : Nat × Int} {k : Nat}
    (h : inverseLoopW fuel n a t newT = .ok (x, k)) : Nat.fib k ≤ a := by
  rcases Nat.lt_or_ge a n with hlt | hge
  · obtain ⟨h1, _⟩ := inverseLoopW_lame hlt h
    by_cases hk : k = 0
    · subst hk; simp
    · exact Nat.le_trans (Nat.fib_mono (Nat.le_succ k)) (h1 hk)
  · cases fuel with
    | zero => cases h
    | succ fuel =>
      by_cases h0 : a = 0
      · subst h0
        unfold inverseLoopW at h
        rw [if_neg (by simp)] at h
        cases h
        simp
      · obtain ⟨t', j, hj, rfl⟩ := inverseLoopW_step h0 h
        obtain ⟨i1, i2⟩ := inverseLoopW_lame (Nat.mod_lt _ (Nat.pos_of_ne_zero h0)) hj
        exact Nat.le_trans (Nat.fib_mono (by omega)) i2

end Verif.Model.Work
