import Verif.Model.Rsa
import Verif.Proof.Big
import Mathlib.FieldTheory.Finite.Basic
import Mathlib.Data.Nat.Prime.Basic
import Mathlib.Data.Nat.ModEq
import Mathlib.Data.Int.GCD

/-! # RSA arithmetic -/

namespace Verif.Model.Rsa
open Verif Verif.Model.Big Verif.Spec.Big

/-! ## The inverse -/

theorem opposite_natAbs (t s : Int) (q : Nat) (h : (t ≤ 0 ∧ 0 ≤ s) ∨ (0 ≤ t ∧ s ≤ 0)) :
    (t - q * s).natAbs = t.natAbs + q * s.natAbs := by
  have hq : (0 : Int) ≤ q := Int.natCast_nonneg q
  rcases h with ⟨h1, h2⟩ | ⟨h1, h2⟩
  · have h3 : 0 ≤ (q : Int) * s := mul_nonneg hq h2
    zify
    rw [abs_of_nonpos (by omega), abs_of_nonpos h1, abs_of_nonneg h2]
    ring
  · have h3 : (q : Int) * s ≤ 0 := mul_nonpos_of_nonneg_of_nonpos hq h2
    zify
    rw [abs_of_nonneg (by omega), abs_of_nonneg h1, abs_of_nonpos h2]
    ring

theorem opposite_sign (t s : Int) (q : Nat) (h : (t ≤ 0 ∧ 0 ≤ s) ∨ (0 ≤ t ∧ s ≤ 0)) :
    (s ≤ 0 ∧ 0 ≤ t - q * s) ∨ (0 ≤ s ∧ t - q * s ≤ 0) := by
  have hq : (0 : Int) ≤ q := Int.natCast_nonneg q
  rcases h with ⟨h1, h2⟩ | ⟨h1, h2⟩
  · have h3 : 0 ≤ (q : Int) * s := mul_nonneg hq h2
    right; omega
  · have h3 : (q : Int) * s ≤ 0 := mul_nonpos_of_nonneg_of_nonpos hq h2
    left; omega

theorem i128_ok (t : Int) (n : Nat) (hn : n < 2 ^ 127) (h : t.natAbs ≤ n) : i128 t = .ok t := by
  unfold i128; rw [if_pos (by omega)]

theorem inverseLoop_ok (n a : Nat) (hn : n < 2 ^ 127) (fuel r newR : Nat) (t newT : Int) (hf : newR < fuel)
    (hr : 0 < r) (hr' : r < 2 ^ 128) (hnr : newR < 2 ^ 128) (hsum : t.natAbs * newR + newT.natAbs * r = n)
    (hsgn : (t ≤ 0 ∧ 0 ≤ newT) ∨ (0 ≤ t ∧ newT ≤ 0))
    (hb1 : (n : Int) ∣ t * a - r) (hb2 : (n : Int) ∣ newT * a - newR) (ht : t.natAbs ≤ n) :
    ∃ t' : Int, inverseLoop fuel r newR t newT = .ok (Nat.gcd r newR, t') ∧ (n : Int) ∣ t' * a - Nat.gcd r newR ∧
      t'.natAbs ≤ n := by
  induction fuel generalizing r newR t newT with
  | zero => omega
  | succ fuel ih =>
    unfold inverseLoop
    by_cases h0 : newR = 0
    · subst h0
      rw [if_neg (by simp), Nat.gcd_zero_right]
      exact ⟨t, rfl, hb1, ht⟩
    · rw [if_pos h0]
      have hpos : 0 < newR := Nat.pos_of_ne_zero h0
      have hqr : r / newR * newR ≤ r := Nat.div_mul_le_self r newR
      have e1 : divU r newR = .ok (r / newR) := by unfold divU; rw [if_neg h0]
      have e2 : mulU128 (r / newR) newR = .ok (r / newR * newR) := by unfold mulU128; rw [if_pos (by omega)]
      have e3 : subU r (r / newR * newR) = .ok (r % newR) := by
        unfold subU; rw [if_pos hqr]; congr 1
        have := Nat.div_add_mod r newR
        rw [Nat.mul_comm] at this
        omega
      have hmod : r % newR = r - r / newR * newR := by
        have := Nat.div_add_mod r newR
        rw [Nat.mul_comm] at this
        omega
      have hmul : asI128 (r / newR) * newT = (r / newR : Nat) * newT := by
        by_cases hT : newT = 0
        · rw [hT]; simp
        · have hN : 1 ≤ newT.natAbs := by omega
          have : r / newR ≤ n := by
            calc r / newR ≤ r := Nat.div_le_self _ _
              _ = 1 * r := (Nat.one_mul r).symm
              _ ≤ newT.natAbs * r := Nat.mul_le_mul_right r hN
              _ ≤ n := by omega
          unfold asI128
          rw [if_pos (by omega)]
      have habs := opposite_natAbs t newT (r / newR) hsgn
      have hsum' : newT.natAbs * (r % newR) + (t - (r / newR : Nat) * newT).natAbs * newR = n := by
        rw [habs, hmod, ← hsum]
        have h1 : newT.natAbs * (r / newR * newR) ≤ newT.natAbs * r := Nat.mul_le_mul_left _ hqr
        rw [Nat.mul_sub, Nat.add_mul]
        have h2 : r / newR * newT.natAbs * newR = newT.natAbs * (r / newR * newR) := by ring
        omega
      have hle : (t - (r / newR : Nat) * newT).natAbs ≤ n := by
        calc (t - (r / newR : Nat) * newT).natAbs = (t - (r / newR : Nat) * newT).natAbs * 1 := (Nat.mul_one _).symm
          _ ≤ (t - (r / newR : Nat) * newT).natAbs * newR := Nat.mul_le_mul_left _ hpos
          _ ≤ n := by omega
      have hprod : ((r / newR : Nat) * newT : Int).natAbs ≤ n := by
        rw [Int.natAbs_mul, Int.natAbs_natCast]; omega
      have e4 : i128 (asI128 (r / newR) * newT) = .ok ((r / newR : Nat) * newT) := by
        rw [hmul]; exact i128_ok _ n hn hprod
      have e5 : i128 (t - (r / newR : Nat) * newT) = .ok (t - (r / newR : Nat) * newT) := i128_ok _ n hn hle
      simp only [e1, e2, e3, e4, e5, bind, Except.bind]
      have hTle : newT.natAbs ≤ n := by
        calc newT.natAbs = newT.natAbs * 1 := (Nat.mul_one _).symm
          _ ≤ newT.natAbs * r := Nat.mul_le_mul_left _ hr
          _ ≤ n := by omega
      have hb3 : (n : Int) ∣ (t - (r / newR : Nat) * newT) * a - (r % newR : Nat) := by
        have e : (t - (r / newR : Nat) * newT) * a - (r % newR : Nat) =
            (t * a - r) - (r / newR : Nat) * (newT * a - newR) := by
          have : (r : Int) = (r / newR : Nat) * newR + (r % newR : Nat) := by
            rw [hmod]; push_cast [Nat.cast_sub hqr]; ring
          rw [this]; ring
        rw [e]
        exact dvd_sub hb1 (Dvd.dvd.mul_left hb2 _)
      have hlt : r % newR < newR := Nat.mod_lt _ hpos
      obtain ⟨t', g1, g2, g3⟩ := ih newR (r % newR) newT (t - (r / newR : Nat) * newT) (by omega) hpos hnr (by omega)
        hsum' (opposite_sign t newT _ hsgn) hb2 hb3 hTle
      rw [Nat.gcd_comm newR (r % newR), ← Nat.gcd_rec, Nat.gcd_comm] at g1 g2
      exact ⟨t', g1, g2, g3⟩

theorem asU128_ok (t : Int) (h0 : 0 ≤ t) (h : t < 2 ^ 127) : asU128 t = t.toNat := by
  unfold asU128; rw [Int.emod_eq_of_lt h0 (by omega)]

/-- `inverse` returns an inverse exactly when there is one. -/
theorem inverse_ok (a n : Nat) (ha : a < 2 ^ 128) (hn0 : 0 < n) (hn : n < 2 ^ 127) :
    (Nat.gcd a n = 1 → ∃ t, inverse a n = .ok (some t) ∧ t ≤ n ∧ a * t ≡ 1 [MOD n]) ∧
    (Nat.gcd a n ≠ 1 → inverse a n = .ok none) := by
  obtain ⟨t', h1, h2, h3⟩ := inverseLoop_ok n a hn (a + 1) n a 0 1 (by omega) hn0 (by omega) ha (by simp)
    (Or.inl ⟨by omega, by omega⟩) (by simp) (by simp) (by simp)
  rw [Nat.gcd_comm] at h1 h2
  unfold inverse
  simp only [h1, bind, Except.bind]
  constructor
  · intro hg
    rw [hg, if_neg (by simp)]
    rw [hg] at h2
    by_cases hneg : t' < 0
    · have e : i128 (t' + asI128 n) = .ok (t' + n) := by
        unfold asI128; rw [if_pos hn]
        exact i128_ok _ n hn (by omega)
      rw [if_pos hneg, e]
      refine ⟨_, rfl, ?_, ?_⟩
      · rw [asU128_ok _ (by omega) (by omega)]; omega
      · rw [asU128_ok _ (by omega) (by omega)]
        rw [← Int.natCast_modEq_iff]
        push_cast
        rw [Int.toNat_of_nonneg (by omega)]
        apply Int.ModEq.symm
        rw [Int.modEq_iff_dvd]
        have : (a : Int) * (t' + n) - 1 = (t' * a - 1) + n * a := by ring
        rw [this]
        exact dvd_add h2 (dvd_mul_right _ _)
    · rw [if_neg hneg]
      refine ⟨_, rfl, ?_, ?_⟩
      · rw [asU128_ok _ (by omega) (by omega)]; omega
      · rw [asU128_ok _ (by omega) (by omega)]
        rw [← Int.natCast_modEq_iff]
        push_cast
        rw [Int.toNat_of_nonneg (by omega)]
        apply Int.ModEq.symm
        rw [Int.modEq_iff_dvd, Int.mul_comm]
        exact h2
  · intro hg
    rw [if_pos hg]
    rfl

/-! ## Key generation -/

theorem lcm_ok (a b : Nat) (ha : 0 < a) (hab : a * b < 2 ^ 128) : lcm a b = .ok (Nat.lcm a b) := by
  unfold lcm
  have e : mulU128 a b = .ok (a * b) := by unfold mulU128; rw [if_pos hab]
  simp only [e, bind, Except.bind]
  unfold divU
  rw [if_neg (Nat.gcd_pos_of_pos_left b ha).ne']
  rfl

/-- The modulus of the exponents stays below 2^127. -/
theorem lcm_lt (p q : Nat) (hp : p.Prime) (hq : q.Prime) (hpq : p * q < 2 ^ 128) :
    Nat.lcm (p - 1) (q - 1) < 2 ^ 127 := by
  have hp2 := hp.two_le
  have hq2 := hq.two_le
  rcases hp.eq_two_or_odd' with rfl | hpo
  · simp only [show 2 - 1 = 1 from rfl, Nat.lcm_one_left]; omega
  rcases hq.eq_two_or_odd' with rfl | hqo
  · simp only [show 2 - 1 = 1 from rfl, Nat.lcm_one_right]; omega
  obtain ⟨x, hx⟩ := hpo
  obtain ⟨y, hy⟩ := hqo
  have hg : 2 ≤ Nat.gcd (p - 1) (q - 1) :=
    Nat.le_of_dvd (Nat.gcd_pos_of_pos_left _ (by omega)) (Nat.dvd_gcd ⟨x, by omega⟩ ⟨y, by omega⟩)
  have hm := Nat.gcd_mul_lcm (p - 1) (q - 1)
  have h1 : 2 * Nat.lcm (p - 1) (q - 1) ≤ (p - 1) * (q - 1) := by
    rw [← hm]; exact Nat.mul_le_mul_right _ hg
  have h2 : (p - 1) * (q - 1) ≤ p * q := Nat.mul_le_mul (by omega) (by omega)
  omega

theorem asU128_big (n : Nat) (h : n < 2 ^ 128) :
    (do unwrapResult (← Big.asU128 (big n))) = (.ok (BitVec.ofNat 128 n) : R U128) := by
  rw [Big.asU128_eq, if_pos (Big.length_le_iff.2 (by omega)), Big.val_big]
  rfl

theorem createKeys_eq (p q e : Nat) (hp : p.Prime) (hq : q.Prime) (hpq : p * q < 2 ^ 128) (he : e < 2 ^ 128) :
    (∀ d, inverse e (Nat.lcm (p - 1) (q - 1)) = .ok (some d) → d < 2 ^ 128 →
      createKeys (big p) (big q) (big e) = .ok (⟨big (p * q), big d⟩, ⟨big (p * q), big e⟩)) ∧
    (inverse e (Nat.lcm (p - 1) (q - 1)) = .ok none → createKeys (big p) (big q) (big e) = .error .unwrap) := by
  have hp2 := hp.two_le
  have hq2 := hq.two_le
  have hpl : p < 2 ^ 128 := Nat.lt_of_le_of_lt (Nat.le_mul_of_pos_right p (by omega)) hpq
  have hql : q < 2 ^ 128 := Nat.lt_of_le_of_lt (Nat.le_mul_of_pos_left q (by omega)) hpq
  have e1 : ∀ n, n < 2 ^ 128 → Big.asU128 (big n) = .ok (.ok (BitVec.ofNat 128 n)) := by
    intro n h
    rw [Big.asU128_eq, if_pos (Big.length_le_iff.2 (by omega)), Big.val_big]
  have e2 : ∀ n, n < 2 ^ 128 → (BitVec.ofNat 128 n).toNat = n := by
    intro n h; rw [BitVec.toNat_ofNat, Nat.mod_eq_of_lt h]
  have e3 : mulU128 p q = .ok (p * q) := by unfold mulU128; rw [if_pos hpq]
  have e4 : subU p 1 = .ok (p - 1) := by unfold subU; rw [if_pos (by omega)]
  have e5 : subU q 1 = .ok (q - 1) := by unfold subU; rw [if_pos (by omega)]
  have e6 : lcm (p - 1) (q - 1) = .ok (Nat.lcm (p - 1) (q - 1)) := by
    apply lcm_ok _ _ (by omega)
    exact Nat.lt_of_le_of_lt (Nat.mul_le_mul (by omega) (by omega)) hpq
  constructor
  · intro d hd hdl
    unfold createKeys
    simp only [e1 p hpl, e1 q hql, e1 e he, unwrapResult, e2 p hpl, e2 q hql, e2 e he, e3, e4, e5, e6, hd, unwrapOption,
      Big.fromU128_eq, e2 d hdl, e2 (p * q) hpq, bind, Except.bind, pure, Except.pure]
  · intro hd
    unfold createKeys
    simp only [e1 p hpl, e1 q hql, e1 e he, unwrapResult, e2 p hpl, e2 q hql, e2 e he, e3, e4, e5, e6, hd, unwrapOption,
      bind, Except.bind]

theorem createKeys_overflow (p q e : Nat) (hpl : p < 2 ^ 128) (hql : q < 2 ^ 128) (he : e < 2 ^ 128)
    (hpq : 2 ^ 128 ≤ p * q) : createKeys (big p) (big q) (big e) = .error .overflow := by
  have e1 : ∀ n, n < 2 ^ 128 → Big.asU128 (big n) = .ok (.ok (BitVec.ofNat 128 n)) := by
    intro n h
    rw [Big.asU128_eq, if_pos (Big.length_le_iff.2 (by omega)), Big.val_big]
  have e2 : ∀ n, n < 2 ^ 128 → (BitVec.ofNat 128 n).toNat = n := by
    intro n h; rw [BitVec.toNat_ofNat, Nat.mod_eq_of_lt h]
  have e3 : mulU128 p q = .error .overflow := by unfold mulU128; rw [if_neg (by omega)]
  unfold createKeys
  simp only [e1 p hpl, e1 q hql, e1 e he, unwrapResult, e2 p hpl, e2 q hql, e3, bind, Except.bind]

theorem createKeys_unwrap (p q e : Nat) (h : 2 ^ 128 ≤ p ∨ 2 ^ 128 ≤ q ∨ 2 ^ 128 ≤ e) :
    createKeys (big p) (big q) (big e) = .error .unwrap := by
  have e1 : ∀ n, n < 2 ^ 128 → Big.asU128 (big n) = .ok (.ok (BitVec.ofNat 128 n)) := by
    intro n h
    rw [Big.asU128_eq, if_pos (Big.length_le_iff.2 (by omega)), Big.val_big]
  have e2 : ∀ n, 2 ^ 128 ≤ n → ∃ r, Big.asU128 (big n) = .ok (.error r) := by
    intro n h
    rw [Big.asU128_eq, if_neg (by rw [Big.length_le_iff]; omega)]
    exact ⟨_, rfl⟩
  unfold createKeys
  by_cases hp : p < 2 ^ 128
  · by_cases hq : q < 2 ^ 128
    · obtain ⟨r, hr⟩ := e2 e (by omega)
      simp only [e1 p hp, e1 q hq, hr, unwrapResult, bind, Except.bind]
    · obtain ⟨r, hr⟩ := e2 q (by omega)
      simp only [e1 p hp, hr, unwrapResult, bind, Except.bind]
  · obtain ⟨r, hr⟩ := e2 p (by omega)
    simp only [hr, unwrapResult, bind, Except.bind]

/-! ## Modular multiplication and exponentiation -/

/-- Sizes for which no intermediate value is too long: at most `2 ^ 28 - 1` bytes. -/
def Fits (n : Nat) : Prop := n.size ≤ 2 ^ 31 - 8

theorem Fits.length {n : Nat} (h : Fits n) : (big n).bytes.length < 2 ^ 28 := by
  unfold Fits at h; rw [length_big]; omega

theorem Fits.mono {a b : Nat} (h : Fits b) (hab : a ≤ b) : Fits a := Nat.le_trans (Nat.size_le_size hab) h

theorem length_double {n : Nat} (h : Fits n) {k : Nat} (hk : k ≤ 2 * n) : (big k).bytes.length ≤ 2 ^ 28 := by
  unfold Fits at h
  have h1 : (2 * n).size ≤ n.size + 1 := by
    rw [Nat.size_le, Nat.pow_succ]; have := Nat.lt_size_self n; omega
  have h2 := Nat.size_le_size hk
  rw [length_big]; omega

theorem size_half (b : Nat) (hb : b ≠ 0) : (b / 2).size + 1 = b.size := by
  have h0 : 0 < b.size := Nat.size_pos.2 (by omega)
  have h1 := Nat.lt_size_self b
  have h2 : 2 ^ (b.size - 1) ≤ b := Nat.lt_size.1 (by omega)
  have e : (2 : Nat) ^ b.size = 2 * 2 ^ (b.size - 1) := by rw [← Nat.pow_succ']; congr 1; omega
  apply Nat.le_antisymm
  · have : (b / 2).size ≤ b.size - 1 := by rw [Nat.size_le]; omega
    omega
  · by_contra hc
    have h3 : (b / 2).size ≤ b.size - 2 := by omega
    rw [Nat.size_le] at h3
    by_cases h4 : b.size = 1
    · rw [h4] at h1 hc; simp at hc
    · have e2 : (2 : Nat) ^ (b.size - 1) = 2 * 2 ^ (b.size - 2) := by rw [← Nat.pow_succ']; congr 1; omega
      omega

theorem mulModLoop_ok {cap : Nat → Nat} (hc : CapOk cap) (m : Nat) (hm : 0 < m) (hfm : Fits m) (fuel r a b : Nat)
    (hf : b.size < fuel) (hr : r < m) (hfa : Fits a) (hfb : Fits b) :
    mulModLoop cap (big m) fuel (big r) (big a) (big b) = .ok (big ((r + a * b) % m)) := by
  induction fuel generalizing r a b with
  | zero => omega
  | succ fuel ih =>
    unfold mulModLoop
    simp only [bitsUsed_norm (norm_big b) (show (big b).bytes.length < 2 ^ 29 by have := hfb.length; omega), val_big, bind,
      Except.bind]
    by_cases h0 : b = 0
    · subst h0
      rw [if_neg (by simp), Nat.mul_zero, Nat.add_zero, Nat.mod_eq_of_lt hr]
    · have hsz : b.size ≠ 0 := by rw [Ne, Nat.size_eq_zero]; exact h0
      rw [if_pos hsz]
      have hb2 := size_half b h0
      have e1 : isSet (big b) 0 = .ok (b.testBit 0) := by
        rw [isSet_norm (norm_big b) (by have := hfb.length; omega), val_big]
      have e3 : rem cap (shl (big a) 1) (big m) = .ok (big (a * 2 % m)) := by
        rw [shl_big_small _ _ (by omega), Nat.pow_one]
        exact rem_eq hc _ _ hm (length_double hfa (by omega)) (by have := hfm.length; omega)
      have e4 : shr (big b) 1 = .ok (big (b / 2)) := by rw [shr_big _ _ (by omega), Nat.pow_one]
      have hfa' : Fits (a * 2 % m) := hfm.mono (Nat.mod_lt _ hm).le
      have hfb' : Fits (b / 2) := hfb.mono (by omega)
      simp only [e1, e3, e4]
      by_cases hbit : b.testBit 0 = true
      · rw [if_pos hbit]
        have hodd : b % 2 = 1 := by rw [Nat.testBit_zero] at hbit; simpa using hbit
        have e2 : rem cap (big (r + a)) (big m) = .ok (big ((r + a) % m)) := by
          apply rem_eq hc _ _ hm _ (by have := hfm.length; omega)
          rcases Nat.le_total a m with h | h
          · exact length_double hfm (by omega)
          · exact length_double hfa (by omega)
        simp only [add_eq, val_big, e2]
        rw [ih _ _ _ (by omega) (Nat.mod_lt _ hm) hfa' hfb']
        congr 2
        rw [Nat.mod_add_mod, Nat.add_mod, Nat.mod_mul_mod, ← Nat.add_mod]
        congr 1
        conv => rhs; rw [show b = 2 * (b / 2) + 1 by omega]
        ring
      · rw [if_neg hbit]
        have heven : b % 2 = 0 := by rw [Nat.testBit_zero] at hbit; simp at hbit; omega
        rw [ih _ _ _ (by omega) hr hfa' hfb']
        congr 2
        rw [Nat.add_mod, Nat.mod_mul_mod, ← Nat.add_mod]
        congr 1
        conv => rhs; rw [show b = 2 * (b / 2) by omega]
        ring

theorem mulMod_ok {cap : Nat → Nat} (hc : CapOk cap) (a b m : Nat) (hm : 0 < m) (hfm : Fits m) (hfa : Fits a)
    (hfb : Fits b) : mulMod cap (big a) (big b) (big m) = .ok (big (a * b % m)) := by
  unfold mulMod
  simp only [fromU128_eq, bind, Except.bind]
  have h := size_val_le (big b)
  rw [val_big] at h
  have := mulModLoop_ok hc m hm hfm (8 * (big b).bytes.length + 1) 0 a b (by omega) hm hfa hfb
  rw [Nat.zero_add] at this
  exact this

theorem powModLoop_ok {cap : Nat → Nat} (hc : CapOk cap) (p m : Nat) (hm : 0 < m) (hfm : Fits m)
    (hlp : (big p).bytes.length < 2 ^ 29) (k i r a : Nat) (hr : r < m) (hfa : Fits a) :
    powModLoop cap (big p) (big m) k i (big r) (big a) = .ok (big (r * a ^ (p / 2 ^ i % 2 ^ k) % m)) := by
  induction k generalizing i r a with
  | zero => simp [powModLoop, Nat.mod_one, Nat.mod_eq_of_lt hr]
  | succ k ih =>
    unfold powModLoop
    have e1 : isSet (big p) i = .ok (p.testBit i) := by rw [isSet_norm (norm_big p) hlp, val_big]
    have hfr : Fits r := hfm.mono hr.le
    have e2 := mulMod_ok hc a a m hm hfm hfa hfa
    have hfa' : Fits (a * a % m) := hfm.mono (Nat.mod_lt _ hm).le
    have hexp : p / 2 ^ i % 2 ^ (k + 1) = 2 * (p / 2 ^ (i + 1) % 2 ^ k) + p / 2 ^ i % 2 := by
      rw [Nat.pow_succ', Nat.mod_mul, Nat.div_div_eq_div_mul, ← Nat.pow_succ,
        Nat.add_comm, Nat.succ_eq_add_one]
    have hbit : p.testBit i = decide (p / 2 ^ i % 2 = 1) := Nat.testBit_eq_decide_div_mod_eq
    have hpow : ∀ j, (a * a % m) ^ j % m = a ^ (2 * j) % m := by
      intro j; rw [← Nat.pow_mod, Nat.pow_mul, Nat.pow_two]
    simp only [e1, e2, bind, Except.bind]
    by_cases h : p / 2 ^ i % 2 = 1
    · rw [if_pos (by rw [hbit]; simpa using h)]
      rw [mulMod_ok hc r a m hm hfm hfr hfa]
      simp only
      rw [ih (i + 1) (r * a % m) (a * a % m) (Nat.mod_lt _ hm) hfa', hexp, h]
      congr 2
      rw [Nat.mul_mod, hpow, Nat.mod_mod, ← Nat.mul_mod, Nat.pow_succ]
      congr 1
      ring
    · rw [if_neg (by rw [hbit]; simpa using h)]
      have h0 : p / 2 ^ i % 2 = 0 := by omega
      have hexp : p / 2 ^ i % 2 ^ (k + 1) = 2 * (p / 2 ^ (i + 1) % 2 ^ k) := by omega
      rw [ih (i + 1) r (a * a % m) hr hfa', hexp]
      congr 2
      rw [Nat.mul_mod, hpow, ← Nat.mul_mod]

theorem powMod_ok {cap : Nat → Nat} (hc : CapOk cap) (a p m : Nat) (hm : 2 ≤ m) (hfm : Fits m) (hfa : Fits a)
    (hp : p.size ≤ 2 ^ 32 - 8) : powMod cap (big a) (big p) (big m) = .ok (big (a ^ p % m)) := by
  have hlp : (big p).bytes.length < 2 ^ 29 := by rw [length_big]; omega
  unfold powMod
  simp only [fromU128_eq, bitsUsed_norm (norm_big p) hlp, val_big, bind, Except.bind]
  have := powModLoop_ok hc p m (by omega) hfm hlp p.size 0 1 a (by omega) hfa
  rw [Nat.pow_zero, Nat.div_one, Nat.mod_eq_of_lt (Nat.lt_size_self p), Nat.one_mul] at this
  exact this

/-! ## RSA -/

theorem pow_modEq_prime (p m k : Nat) (hp : p.Prime) (j : Nat) (hk : k = (p - 1) * j + 1) : m ^ k ≡ m [MOD p] := by
  have := Fact.mk hp
  rw [← ZMod.natCast_eq_natCast_iff]
  push_cast
  by_cases h : (m : ZMod p) = 0
  · rw [h, hk, zero_pow (by omega)]
  · rw [hk, pow_succ, pow_mul, ZMod.pow_card_sub_one_eq_one h, one_pow, one_mul]

theorem rsa_correct (p q e d m : Nat) (hp : p.Prime) (hq : q.Prime) (hpq : p ≠ q)
    (hed : e * d ≡ 1 [MOD Nat.lcm (p - 1) (q - 1)]) (hm : m < p * q) : m ^ (e * d) % (p * q) = m := by
  have hp2 := hp.two_le
  have hq2 := hq.two_le
  have hl1 : 1 < Nat.lcm (p - 1) (q - 1) := by
    have hd1 := Nat.dvd_lcm_left (p - 1) (q - 1)
    have hd2 := Nat.dvd_lcm_right (p - 1) (q - 1)
    have hpos : 0 < Nat.lcm (p - 1) (q - 1) := Nat.lcm_pos (by omega) (by omega)
    have := Nat.le_of_dvd hpos hd1
    have := Nat.le_of_dvd hpos hd2
    omega
  have hed1 : 1 ≤ e * d := by
    by_contra hc
    have h0 : e * d = 0 := by omega
    rw [h0] at hed
    have : (0 : Nat) % Nat.lcm (p - 1) (q - 1) = 1 % Nat.lcm (p - 1) (q - 1) := hed
    rw [Nat.zero_mod, Nat.mod_eq_of_lt hl1] at this
    omega
  have hdvd : Nat.lcm (p - 1) (q - 1) ∣ e * d - 1 := (Nat.modEq_iff_dvd' hed1).1 hed.symm
  obtain ⟨j1, hj1⟩ := (Nat.dvd_lcm_left (p - 1) (q - 1)).trans hdvd
  obtain ⟨j2, hj2⟩ := (Nat.dvd_lcm_right (p - 1) (q - 1)).trans hdvd
  have h1 := pow_modEq_prime p m (e * d) hp j1 (by omega)
  have h2 := pow_modEq_prime q m (e * d) hq j2 (by omega)
  have hcop : Nat.Coprime p q := (Nat.coprime_primes hp hq).2 hpq
  have h := (Nat.modEq_and_modEq_iff_modEq_mul hcop).1 ⟨h1, h2⟩
  have h' : m ^ (e * d) % (p * q) = m % (p * q) := h
  rw [h', Nat.mod_eq_of_lt hm]

end Verif.Model.Rsa
