import Verif.Spec.Factor
import Verif.Props.RsaWorks
import Mathlib.NumberTheory.LegendreSymbol.Basic
import Mathlib.Data.ZMod.Units

/-! # C139: both exponents give the factors -/

namespace Verif.Props
open Verif Verif.Model.Big Verif.Model.Rsa Verif.Spec.Big
open _root_.Verif.Spec.Factor (factorFrom)

/-! ## Proofs -/

theorem factor_pq {p q g : Nat} (hp : p.Prime) (hq : q.Prime) (hg : g ∣ p * q) (h1 : 1 < g) (h2 : g < p * q) :
    g = p ∨ g = q := by
  rcases (Nat.dvd_mul.1 hg) with ⟨a, b, ha, hb, rfl⟩
  rcases (Nat.dvd_prime hp).1 ha with rfl | rfl <;> rcases (Nat.dvd_prime hq).1 hb with rfl | rfl
  · omega
  · right; rw [Nat.one_mul]
  · left; rw [Nat.mul_one]
  · omega

theorem odd_pow {p : Nat} [Fact p.Prime] {x : ZMod p} (h : x = 1 ∨ x = -1) {w : Nat} (hw : Odd w) : x ^ w = x := by
  rcases h with rfl | rfl
  · simp
  · exact hw.neg_one_pow

theorem gcd_one_of {p q x : Nat} (hp : p.Prime) (hq : q.Prime) (hx : 1 ≤ x) (hxp : (x : ZMod p) = 1) (hxq : (x : ZMod q) ≠ 1) :
    1 < Nat.gcd (x - 1) (p * q) ∧ Nat.gcd (x - 1) (p * q) < p * q := by
  have e : ∀ m, ((x - 1 : Nat) : ZMod m) = (x : ZMod m) - 1 := fun m => by push_cast [Nat.cast_sub hx]; rfl
  have h1 : p ∣ x - 1 := (ZMod.natCast_eq_zero_iff _ _).1 (by rw [e, hxp, sub_self])
  have h2 : ¬ q ∣ x - 1 := fun h => hxq (by
    have := (ZMod.natCast_eq_zero_iff _ _).2 h
    rw [e] at this
    exact sub_eq_zero.1 this)
  have h3 : p ∣ Nat.gcd (x - 1) (p * q) := Nat.dvd_gcd h1 (Dvd.intro _ rfl)
  have hpos : 0 < p * q := Nat.mul_pos hp.pos hq.pos
  refine ⟨?_, ?_⟩
  · exact lt_of_lt_of_le hp.one_lt (Nat.le_of_dvd (Nat.gcd_pos_of_pos_right _ hpos) h3)
  · refine lt_of_le_of_ne (Nat.le_of_dvd hpos (Nat.gcd_dvd_right _ _)) fun h => h2 ?_
    exact dvd_trans (Dvd.intro_left _ rfl) (h ▸ Nat.gcd_dvd_left (x - 1) (p * q))

theorem find_none {n e d a : Nat} (h : factorFrom n e d a = none) :
    ¬ (1 < Nat.gcd a n ∧ Nat.gcd a n < n) ∧ ∀ j, j ≤ (e * d - 1).log2 → 2 ^ j ∣ e * d - 1 →
      ¬ (1 < Nat.gcd (a ^ ((e * d - 1) / 2 ^ j) - 1) n ∧ Nat.gcd (a ^ ((e * d - 1) / 2 ^ j) - 1) n < n) := by
  unfold factorFrom at h
  rw [List.find?_eq_none] at h
  refine ⟨fun hg => h (Nat.gcd a n) (by simp) (by simpa using hg), fun j hj hd hg => ?_⟩
  refine h (Nat.gcd (a ^ ((e * d - 1) / 2 ^ j) - 1) n) ?_ (by simpa using hg)
  simp only [List.mem_cons, List.mem_map, List.mem_filter, List.mem_range, decide_eq_true_eq]
  exact Or.inr ⟨_, ⟨j, ⟨by omega, hd⟩, rfl⟩, rfl⟩

/-- C139: what comes out is one of the two primes. -/
theorem C139_sound (p q e d a g : Nat) (hp : p.Prime) (hq : q.Prime) (h : factorFrom (p * q) e d a = some g) :
    g = p ∨ g = q := by
  unfold factorFrom at h
  have h1 := List.mem_of_find?_eq_some h
  have h2 := List.find?_some h
  simp only [decide_eq_true_eq] at h2
  refine factor_pq hp hq ?_ h2.1 h2.2
  simp only [List.mem_cons, List.mem_map] at h1
  rcases h1 with rfl | ⟨i, _, rfl⟩ <;> exact Nat.gcd_dvd_right _ _

theorem half_odd (p q e d : Nat) (hp : p.Prime) (hq : q.Prime) (hp2 : p ≠ 2) (hpq : p ≠ q) (hed : 1 < e * d)
    (hinv : e * d ≡ 1 [MOD Nat.lcm (p - 1) (q - 1)]) :
    2 * ((Finset.range (p * q)).filter fun a => factorFrom (p * q) e d a = none).card ≤ p * q := by
  have := Fact.mk hp
  have := Fact.mk hq
  have : Fact (2 < p) := ⟨by have := hp.two_le; omega⟩
  have hp3 : 3 ≤ p := by have := hp.two_le; omega
  have hcop : Nat.Coprime p q := (Nat.coprime_primes hp hq).2 hpq
  obtain ⟨c, hc⟩ : p - 1 ∣ e * d - 1 :=
    dvd_trans (Nat.dvd_lcm_left _ _) ((Nat.modEq_iff_dvd' (by omega)).1 hinv.symm)
  have hc0 : c ≠ 0 := by rintro rfl; omega
  obtain ⟨s, w, hw, rfl⟩ := Nat.exists_eq_two_pow_mul_odd hc0
  have hodd : p % 2 = 1 := hp.eq_two_or_odd.resolve_left hp2
  have hE : e * d - 1 = p / 2 * w * 2 ^ (s + 1) := by
    rw [hc, show p - 1 = p / 2 * 2 by omega, pow_succ]; ring
  have hj1 : 2 ^ (s + 1) ∣ e * d - 1 := hE ▸ Dvd.intro_left _ rfl
  have hj2 : s + 1 ≤ (e * d - 1).log2 := (Nat.le_log2 (by omega)).2 (Nat.le_of_dvd (by omega) hj1)
  have hj3 : (e * d - 1) / 2 ^ (s + 1) = p / 2 * w := by rw [hE]; exact Nat.mul_div_cancel _ (by positivity)
  generalize hE' : p / 2 * w = E at hj3
  -- the values of the power modulo the first prime
  have hval : ∀ x : ZMod p, x ≠ 0 → (x ^ E = 1 ∨ x ^ E = -1) ∧ x ^ E = x ^ (p / 2) := by
    intro x hx
    have h1 := ZMod.pow_div_two_eq_neg_one_or_one p hx
    have h2 : x ^ E = x ^ (p / 2) := by rw [← hE', pow_mul, odd_pow h1 hw]
    exact ⟨h2 ▸ h1, h2⟩
  -- a number that is not a square modulo p and is 1 modulo q
  obtain ⟨y, hy⟩ := FiniteField.exists_nonsquare (F := ZMod p) (by rw [ZMod.ringChar_zmod_n]; exact hp2)
  have hy0 : y ≠ 0 := by rintro rfl; exact hy ⟨0, by simp⟩
  have hyE : y ^ E = -1 := by
    rw [(hval y hy0).2]
    have := ZMod.pow_div_two_eq_neg_one_or_one p hy0
    exact this.resolve_left fun h => hy ((ZMod.euler_criterion p hy0).2 h)
  obtain ⟨t, ht1, ht2⟩ := Nat.chineseRemainder hcop y.val 1
  have htp : (t : ZMod p) = y := by
    rw [(ZMod.natCast_eq_natCast_iff t y.val p).2 ht1, ZMod.natCast_zmod_val]
  have htq : (t : ZMod q) = 1 := by
    rw [(ZMod.natCast_eq_natCast_iff t 1 q).2 ht2, Nat.cast_one]
  have hneg : (1 : ZMod p) ≠ -1 := fun h => ZMod.neg_one_ne_one h.symm
  have hpos : 0 < p * q := Nat.mul_pos hp.pos hq.pos
  -- what a bad base is like
  have bad : ∀ a, factorFrom (p * q) e d a = none → (a : ZMod p) ≠ 0 → (a : ZMod q) ≠ 0 →
      ((a : ZMod p) ^ E = 1 ↔ (a : ZMod q) ^ E = 1) := by
    intro a ha hap haq
    have h := (find_none ha).2 (s + 1) hj2 hj1
    rw [hj3] at h
    have ha1 : 1 ≤ a ^ E := Nat.one_le_iff_ne_zero.2 (pow_ne_zero _ (by rintro rfl; simp at hap))
    constructor
    · intro h1
      by_contra h2
      exact h (gcd_one_of hp hq ha1 (by push_cast; exact h1) (by push_cast; exact h2))
    · intro h1
      by_contra h2
      rw [Nat.mul_comm] at h
      exact h (gcd_one_of hq hp ha1 (by push_cast; exact h1) (by push_cast; exact h2))
  have unit : ∀ a, 0 < a → a < p * q → factorFrom (p * q) e d a = none → (a : ZMod p) ≠ 0 ∧ (a : ZMod q) ≠ 0 := by
    intro a h0 hlt ha
    have h := (find_none ha).1
    have hle : Nat.gcd a (p * q) < p * q := lt_of_le_of_lt (Nat.le_of_dvd h0 (Nat.gcd_dvd_left _ _)) hlt
    have hg : ∀ r, r.Prime → r ∣ p * q → (a : ZMod r) ≠ 0 := by
      intro r hr hd hz
      have h1 := Nat.dvd_gcd ((ZMod.natCast_eq_zero_iff _ _).1 hz) hd
      exact h ⟨lt_of_lt_of_le hr.one_lt (Nat.le_of_dvd (Nat.gcd_pos_of_pos_right _ hpos) h1), hle⟩
    exact ⟨hg p hp (Dvd.intro _ rfl), hg q hq (Dvd.intro_left _ rfl)⟩
  have hyv : ∀ a : ℕ, ((a * t % (p * q) : ℕ) : ZMod p) = a * y ∧ ((a * t % (p * q) : ℕ) : ZMod q) = a := by
    intro a
    have h1 : a * t % (p * q) ≡ a * t [MOD p * q] := Nat.mod_modEq _ _
    refine ⟨?_, ?_⟩
    · rw [(ZMod.natCast_eq_natCast_iff _ _ p).2 (h1.of_mul_right q)]; push_cast; rw [htp]
    · rw [(ZMod.natCast_eq_natCast_iff _ _ q).2 (h1.of_mul_left p)]; push_cast; rw [htq, mul_one]
  have good : ∀ a, 0 < a → a < p * q → factorFrom (p * q) e d a = none →
      factorFrom (p * q) e d (a * t % (p * q)) ≠ none := by
    intro a h0 hlt ha hb
    obtain ⟨hap, haq⟩ := unit a h0 hlt ha
    obtain ⟨vp, vq⟩ := hyv a
    have h1 := bad a ha hap haq
    have h2 := bad _ hb (by rw [vp]; exact mul_ne_zero hap hy0) (by rw [vq]; exact haq)
    rw [vp, vq, ← h1, mul_pow, hyE] at h2
    rcases (hval _ hap).1 with h3 | h3
    · rw [h3] at h2
      exact hneg (by simpa using (h2.2 rfl).symm)
    · rw [h3] at h2
      exact hneg (h2.1 (by simp)).symm
  have goodp : factorFrom (p * q) e d p ≠ none := by
    intro h
    refine (find_none h).1 ?_
    rw [Nat.gcd_eq_left (Dvd.intro _ rfl)]
    exact ⟨hp.one_lt, (Nat.lt_mul_iff_one_lt_right hp.pos).2 hq.one_lt⟩
  -- bad bases are carried to good ones, different ones to different ones
  have hle : ((Finset.range (p * q)).filter fun a => factorFrom (p * q) e d a = none).card ≤
      ((Finset.range (p * q)).filter fun a => ¬ factorFrom (p * q) e d a = none).card := by
    refine Finset.card_le_card_of_injOn (fun a => if a = 0 then p else a * t % (p * q)) ?_ ?_
    · intro a ha
      simp only [Finset.coe_filter, Finset.mem_range, Set.mem_ofPred_eq] at ha ⊢
      by_cases h : a = 0
      · rw [if_pos h]
        exact ⟨(Nat.lt_mul_iff_one_lt_right hp.pos).2 hq.one_lt, goodp⟩
      · rw [if_neg h]
        exact ⟨Nat.mod_lt _ hpos, good a (by omega) ha.1 ha.2⟩
    · have ne : ∀ a, a ≠ 0 → a < p * q → factorFrom (p * q) e d a = none → a * t % (p * q) ≠ p := by
        intro a h0 hlt ha h
        have h1 := (hyv a).1
        rw [h, ZMod.natCast_self] at h1
        exact mul_ne_zero (unit a (by omega) hlt ha).1 hy0 h1.symm
      intro a ha b hb hab
      simp only [Finset.coe_filter, Finset.mem_range, Set.mem_ofPred_eq] at ha hb
      simp only at hab
      by_cases h : a = 0 <;> by_cases h' : b = 0
      · rw [h, h']
      · rw [if_pos h, if_neg h'] at hab
        exact absurd hab.symm (ne b h' hb.1 hb.2)
      · rw [if_neg h, if_pos h'] at hab
        exact absurd hab (ne a h ha.1 ha.2)
      · rw [if_neg h, if_neg h'] at hab
        have e1 : (a : ZMod p) = b := by
          have := (hyv a).1
          rw [hab, (hyv b).1] at this
          exact (mul_right_cancel₀ hy0 this).symm
        have e2 : (a : ZMod q) = b := by
          have := (hyv a).2
          rw [hab, (hyv b).2] at this
          exact this.symm
        have := (Nat.modEq_and_modEq_iff_modEq_mul hcop).1
          ⟨(ZMod.natCast_eq_natCast_iff _ _ _).1 e1, (ZMod.natCast_eq_natCast_iff _ _ _).1 e2⟩
        rw [Nat.ModEq, Nat.mod_eq_of_lt ha.1, Nat.mod_eq_of_lt hb.1] at this
        exact this
  have hsum := Finset.card_filter_add_card_filter_not (s := Finset.range (p * q))
    (fun a => factorFrom (p * q) e d a = none)
  rw [Finset.card_range] at hsum
  omega

/-- C139: and at least every second base gives it. -/
theorem C139_half (p q e d : Nat) (hp : p.Prime) (hq : q.Prime) (hpq : p ≠ q) (hed : 1 < e * d)
    (hinv : e * d ≡ 1 [MOD Nat.lcm (p - 1) (q - 1)]) :
    2 * ((Finset.range (p * q)).filter fun a => factorFrom (p * q) e d a = none).card ≤ p * q := by
  by_cases hp2 : p = 2
  · rw [Nat.mul_comm p q]
    exact half_odd q p e d hq hp (by omega) hpq.symm hed (Nat.lcm_comm _ _ ▸ hinv)
  · exact half_odd p q e d hp hq hp2 hpq hed hinv

theorem product_gt {p q e d : Nat} (hpq : p ≠ q) (h1 : ¬ (e = 1 ∧ d = 1))
    (hinv : e * d ≡ 1 [MOD Nat.lcm (p - 1) (q - 1)]) : 1 < e * d := by
  have h2 : e * d ≠ 0 := by
    intro h
    rw [h] at hinv
    have h3 : Nat.lcm (p - 1) (q - 1) ∣ 1 := (Nat.modEq_iff_dvd' (by omega)).1 hinv
    have h4 : p - 1 = 1 := Nat.dvd_one.1 (dvd_trans (Nat.dvd_lcm_left _ _) h3)
    have h5 : q - 1 = 1 := Nat.dvd_one.1 (dvd_trans (Nat.dvd_lcm_right _ _) h3)
    omega
  have h3 : e * d ≠ 1 := fun h => h1 (mul_eq_one.1 h)
  omega

/-- C139: so whoever has keys that work — that undo each other on all numbers below a modulus made of two different primes —
and are not both 1, has the primes. -/
theorem C139_working_keys {cap : Nat → Nat} (hc : CapOk cap) (p q e d : Nat) (hp : p.Prime) (hq : q.Prime)
    (hpq : p ≠ q) (hsn : (p * q).size ≤ 2 ^ 31 - 8) (hse : e.size ≤ 2 ^ 32 - 8) (hsd : d.size ≤ 2 ^ 32 - 8)
    (hw : Works cap (p * q) e d) (h1 : ¬ (e = 1 ∧ d = 1)) :
    2 * ((Finset.range (p * q)).filter fun a =>
      ¬ (factorFrom (p * q) e d a = some p ∨ factorFrom (p * q) e d a = some q)).card ≤ p * q := by
  have hinv := (C132_two_primes hc p q e d hp hq hpq hsn hse hsd).1 hw
  have hed := product_gt hpq h1 hinv
  refine le_trans (Nat.mul_le_mul_left 2 (Finset.card_le_card ?_)) (C139_half p q e d hp hq hpq hed hinv)
  intro a ha
  simp only [Finset.mem_filter] at ha ⊢
  refine ⟨ha.1, ?_⟩
  cases h : factorFrom (p * q) e d a with
  | none => rfl
  | some g =>
    exfalso
    rcases C139_sound p q e d a g hp hq h with rfl | rfl
    · exact ha.2 (Or.inl h)
    · exact ha.2 (Or.inr h)

/-- C139: the same for the keys that key generation returns. -/
theorem C139_create_keys (p q e : BigUint) (sk : PrivateKey) (pk : PublicKey) (hk : createKeys p q e = .ok (sk, pk))
    (hp : (val p).Prime) (hq : (val q).Prime) (hpq : val p ≠ val q) (he : val e ≠ 1) :
    2 * ((Finset.range (val pk.n)).filter fun a =>
      ¬ (factorFrom (val pk.n) (val pk.e) (val sk.d) a = some (val p) ∨
        factorFrom (val pk.n) (val pk.e) (val sk.d) a = some (val q))).card ≤ val pk.n := by
  obtain ⟨g1, g2, g3, hinv⟩ := C92_keys_sound p q e sk pk hk
  rw [← g2, g1, g3] at *
  have hed := product_gt hpq (fun h => he h.1) hinv
  refine le_trans (Nat.mul_le_mul_left 2 (Finset.card_le_card ?_)) (C139_half (val p) (val q) _ _ hp hq hpq hed hinv)
  intro a ha
  simp only [Finset.mem_filter] at ha ⊢
  refine ⟨ha.1, ?_⟩
  cases h : factorFrom (val p * val q) (val e) (val sk.d) a with
  | none => rfl
  | some g =>
    exfalso
    rcases C139_sound _ _ _ _ a g hp hq h with rfl | rfl
    · exact ha.2 (Or.inl h)
    · exact ha.2 (Or.inr h)

/-! ## The textbook key -/

/-- The keys made from 61, 53 and 17: the bases 3 and 6 give a prime, the base 2 does not. -/
example : factorFrom 3233 17 413 3 = some 61 ∧ factorFrom 3233 17 413 6 = some 53 ∧ factorFrom 3233 17 413 2 = none := by
  decide +kernel
example : (61 : Nat) = 61 ∨ (61 : Nat) = 53 := C139_sound 61 53 17 413 3 61 (by norm_num) (by norm_num) (by decide +kernel)
example : 2 * ((Finset.range (61 * 53)).filter fun a => factorFrom (61 * 53) 17 413 a = none).card ≤ 61 * 53 :=
  C139_half 61 53 17 413 (by norm_num) (by norm_num) (by norm_num) (by norm_num) (by decide +kernel)
example : 2 * ((Finset.range 3233).filter fun a =>
    ¬ (factorFrom 3233 17 413 a = some 61 ∨ factorFrom 3233 17 413 a = some 53)).card ≤ 3233 := by
  have e1 : val ⟨[0xa1#8, 0x0c#8]⟩ = 3233 := by decide +kernel
  have e2 : val ⟨[0x9d#8, 0x01#8]⟩ = 413 := by decide +kernel
  have e3 : val ⟨[17#8]⟩ = 17 := by decide +kernel
  have e4 : val ⟨[61#8]⟩ = 61 := by decide +kernel
  have e5 : val ⟨[53#8]⟩ = 53 := by decide +kernel
  have h := C139_create_keys ⟨[61#8]⟩ ⟨[53#8]⟩ ⟨[17#8]⟩ ⟨⟨[0xa1#8, 0x0c#8]⟩, ⟨[0x9d#8, 0x01#8]⟩⟩
    ⟨⟨[0xa1#8, 0x0c#8]⟩, ⟨[17#8]⟩⟩ (by decide +kernel) (by rw [e4]; norm_num) (by rw [e5]; norm_num)
    (by rw [e4, e5]; norm_num) (by rw [e3]; norm_num)
  simpa only [e1, e2, e3, e4, e5] using h
example : 2 * ((Finset.range (61 * 53)).filter fun a =>
    ¬ (factorFrom (61 * 53) 17 413 a = some 61 ∨ factorFrom (61 * 53) 17 413 a = some 53)).card ≤ 61 * 53 := by
  have hs : ∀ x : Nat, x < 2 ^ 128 → x.size ≤ 2 ^ 31 - 8 := fun x h => Nat.le_trans (size_lt x h) (by norm_num)
  have hs' : ∀ x : Nat, x < 2 ^ 128 → x.size ≤ 2 ^ 32 - 8 := fun x h => Nat.le_trans (size_lt x h) (by norm_num)
  exact C139_working_keys exactCap_ok 61 53 17 413 (by norm_num) (by norm_num) (by norm_num)
    (hs _ (by norm_num)) (hs' _ (by norm_num)) (hs' _ (by norm_num))
    ((C132_two_primes exactCap_ok 61 53 17 413 (by norm_num) (by norm_num) (by norm_num)
      (hs _ (by norm_num)) (hs' _ (by norm_num)) (hs' _ (by norm_num))).2 (by decide +kernel)) (by norm_num)

end Verif.Props
