import Verif.Props.RsaExact
import Mathlib.RingTheory.IntegralDomain
import Mathlib.Data.ZMod.Units
import Mathlib.GroupTheory.SpecificGroups.Cyclic

/-! # C123: numbers that RSA does not change, counted -/

namespace Verif.Props
open Verif Verif.Model.Big Verif.Model.Rsa Verif.Spec.Big

/-! ## Number theory -/

/-- In a prime field exactly `1 + gcd (e - 1) (p - 1)` elements satisfy `a ^ e = a`. -/
theorem field_fixed (p : Nat) [Fact p.Prime] (e : Nat) (he : 1 ≤ e) :
    {a : ZMod p | a ^ e = a}.ncard = 1 + Nat.gcd (e - 1) (p - 1) := by
  have hset : {a : ZMod p | a ^ e = a} =
      {0} ∪ (Units.val '' ((powMonoidHom (e - 1) : (ZMod p)ˣ →* (ZMod p)ˣ).ker : Set (ZMod p)ˣ)) := by
    ext a
    simp only [Set.mem_setOf_eq, Set.singleton_union, Set.mem_insert_iff, Set.mem_image, SetLike.mem_coe,
      MonoidHom.mem_ker, powMonoidHom_apply]
    constructor
    · intro h
      by_cases h0 : a = 0
      · exact .inl h0
      · refine .inr ⟨Units.mk0 a h0, ?_, rfl⟩
        apply Units.ext
        rw [Units.val_pow_eq_pow_val, Units.val_mk0, Units.val_one]
        have h' : a ^ (e - 1) * a = 1 * a := by rw [← pow_succ, Nat.sub_add_cancel he, one_mul, h]
        exact mul_right_cancel₀ h0 h'
    · rintro (rfl | ⟨u, hu, rfl⟩)
      · exact zero_pow (by omega)
      · have := congrArg Units.val hu
        rw [Units.val_pow_eq_pow_val, Units.val_one] at this
        calc (u : ZMod p) ^ e = u ^ (e - 1) * u := by rw [← pow_succ, Nat.sub_add_cancel he]
          _ = u := by rw [this, one_mul]
  have hker : ((powMonoidHom (e - 1) : (ZMod p)ˣ →* (ZMod p)ˣ).ker : Set (ZMod p)ˣ).ncard = Nat.gcd (e - 1) (p - 1) := by
    have h := IsCyclic.card_powMonoidHom_ker (G := (ZMod p)ˣ) (e - 1)
    rw [Nat.card_eq_fintype_card (α := (ZMod p)ˣ), ZMod.card_units, Nat.gcd_comm] at h
    rw [← h]
    rfl
  rw [hset, Set.ncard_union_eq, Set.ncard_singleton, Set.ncard_image_of_injective _ Units.val_injective, hker]
  rw [Set.disjoint_singleton_left]
  rintro ⟨u, _, hu⟩
  exact u.ne_zero hu

/-- The same for a product of two different primes. -/
theorem product_fixed (p q e : Nat) (hp : p.Prime) (hq : q.Prime) (hpq : p ≠ q) (he : 1 ≤ e) :
    {x | x < p * q ∧ x ^ e % (p * q) = x}.ncard = (1 + Nat.gcd (e - 1) (p - 1)) * (1 + Nat.gcd (e - 1) (q - 1)) := by
  haveI := Fact.mk hp
  haveI := Fact.mk hq
  haveI : NeZero (p * q) := ⟨Nat.mul_ne_zero hp.ne_zero hq.ne_zero⟩
  have hco : Nat.Coprime p q := (Nat.coprime_primes hp hq).2 hpq
  rw [← field_fixed p e he, ← field_fixed q e he, ← Set.ncard_prod]
  have h1 : {x | x < p * q ∧ x ^ e % (p * q) = x} = ZMod.val '' {z : ZMod (p * q) | z ^ e = z} := by
    ext x
    simp only [Set.mem_setOf_eq, Set.mem_image]
    constructor
    · rintro ⟨hx, h⟩
      refine ⟨(x : ZMod (p * q)), ?_, ZMod.val_cast_of_lt hx⟩
      rw [← Nat.cast_pow, ZMod.natCast_eq_natCast_iff, Nat.ModEq, h, Nat.mod_eq_of_lt hx]
    · rintro ⟨z, hz, rfl⟩
      refine ⟨ZMod.val_lt z, ?_⟩
      rw [← ZMod.val_natCast, Nat.cast_pow, ZMod.natCast_zmod_val, hz]
  have h2 : {z : ZMod (p * q) | z ^ e = z} =
      (ZMod.chineseRemainder hco).symm '' ({a : ZMod p | a ^ e = a} ×ˢ {b : ZMod q | b ^ e = b}) := by
    ext z
    simp only [Set.mem_setOf_eq, Set.mem_image, Set.mem_prod]
    constructor
    · intro h
      refine ⟨ZMod.chineseRemainder hco z, ?_, RingEquiv.symm_apply_apply _ _⟩
      have := congrArg (ZMod.chineseRemainder hco) h
      rw [map_pow] at this
      exact ⟨congrArg Prod.fst this, congrArg Prod.snd this⟩
    · rintro ⟨⟨a, b⟩, ⟨ha, hb⟩, rfl⟩
      rw [← map_pow]
      congr 1
      exact Prod.ext ha hb
  rw [h1, h2, Set.ncard_image_of_injective _ (ZMod.val_injective _),
    Set.ncard_image_of_injective _ (RingEquiv.injective _)]

/-! ## C123 -/

theorem encrypt_fixed_iff {cap : Nat → Nat} (hc : CapOk cap) (e n x : Nat) (hn : 2 ≤ n) (hsn : n.size ≤ 2 ^ 31 - 8)
    (hse : e.size ≤ 2 ^ 32 - 8) (hx : x < n) : encrypt cap ⟨big e, big n⟩ (big x) = .ok (big x) ↔ x ^ e % n = x := by
  rw [(C50_encrypt hc x e n hn hsn (Nat.le_trans (Nat.size_le_size hx.le) hsn) hse).1]
  constructor
  · intro h
    have := congrArg val (Except.ok.inj h)
    rwa [Model.Big.val_big, Model.Big.val_big] at this
  · intro h
    rw [h]

/-- C123: exactly `(1 + gcd (e - 1) (p - 1)) * (1 + gcd (e - 1) (q - 1))` numbers below the modulus are their own
ciphertexts. -/
theorem C123_fixed_points {cap : Nat → Nat} (hc : CapOk cap) (p q e : Nat) (hp : p.Prime) (hq : q.Prime) (hpq : p ≠ q)
    (he : 1 ≤ e) (hsn : (p * q).size ≤ 2 ^ 31 - 8) (hse : e.size ≤ 2 ^ 32 - 8) :
    {x | x < p * q ∧ encrypt cap ⟨big e, big (p * q)⟩ (big x) = .ok (big x)}.ncard =
      (1 + Nat.gcd (e - 1) (p - 1)) * (1 + Nat.gcd (e - 1) (q - 1)) := by
  have hn : 2 ≤ p * q := Nat.le_trans hp.two_le (Nat.le_mul_of_pos_right p hq.pos)
  rw [← product_fixed p q e hp hq hpq he]
  congr 1
  ext x
  simp only [Set.mem_setOf_eq]
  constructor
  · rintro ⟨hx, h⟩
    exact ⟨hx, (encrypt_fixed_iff hc e _ x hn hsn hse hx).1 h⟩
  · rintro ⟨hx, h⟩
    exact ⟨hx, (encrypt_fixed_iff hc e _ x hn hsn hse hx).2 h⟩

/-- C123: with odd primes and an odd exponent (an even one has no inverse) there are at least nine of them. -/
theorem C123_at_least_nine {cap : Nat → Nat} (hc : CapOk cap) (p q e : Nat) (hp : p.Prime) (hq : q.Prime) (hpq : p ≠ q)
    (hp2 : p ≠ 2) (hq2 : q ≠ 2) (he : e % 2 = 1) (hsn : (p * q).size ≤ 2 ^ 31 - 8) (hse : e.size ≤ 2 ^ 32 - 8) :
    9 ≤ {x | x < p * q ∧ encrypt cap ⟨big e, big (p * q)⟩ (big x) = .ok (big x)}.ncard := by
  rw [C123_fixed_points hc p q e hp hq hpq (by omega) hsn hse]
  have h : ∀ r : Nat, r.Prime → r ≠ 2 → 2 ≤ Nat.gcd (e - 1) (r - 1) := by
    intro r hr hr2
    have h3 := hr.two_le
    have hodd := hr.eq_two_or_odd.resolve_left hr2
    exact Nat.le_of_dvd (Nat.gcd_pos_of_pos_right _ (by omega)) (Nat.dvd_gcd (by omega) (by omega))
  have h1 := h p hp hp2
  have h2 := h q hq hq2
  calc 9 = 3 * 3 := rfl
    _ ≤ _ := Nat.mul_le_mul (by omega) (by omega)

/-- C123: encryption changes nothing at all exactly for the exponents that are 1 modulo `p - 1` and modulo `q - 1`. -/
theorem C123_useless_iff {cap : Nat → Nat} (hc : CapOk cap) (p q e : Nat) (hp : p.Prime) (hq : q.Prime) (hpq : p ≠ q)
    (he : 1 ≤ e) (hsn : (p * q).size ≤ 2 ^ 31 - 8) (hse : e.size ≤ 2 ^ 32 - 8) :
    (∀ x, x < p * q → encrypt cap ⟨big e, big (p * q)⟩ (big x) = .ok (big x)) ↔ p - 1 ∣ e - 1 ∧ q - 1 ∣ e - 1 := by
  have hcard := C123_fixed_points hc p q e hp hq hpq he hsn hse
  have hp1 := hp.two_le
  have hq1 := hq.two_le
  have hg1 := Nat.le_of_dvd (by omega) (Nat.gcd_dvd_right (e - 1) (p - 1))
  have hg2 := Nat.le_of_dvd (by omega) (Nat.gcd_dvd_right (e - 1) (q - 1))
  have hall : {x | x < p * q}.ncard = p * q := by
    rw [show {x | x < p * q} = ((Finset.range (p * q) : Finset Nat) : Set Nat) by ext; simp, Set.ncard_coe_finset,
      Finset.card_range]
  constructor
  · intro h
    have hset : {x | x < p * q ∧ encrypt cap ⟨big e, big (p * q)⟩ (big x) = .ok (big x)} = {x | x < p * q} := by
      ext x
      exact ⟨fun hx => hx.1, fun hx => ⟨hx, h x hx⟩⟩
    rw [hset, hall] at hcard
    have e1 : Nat.gcd (e - 1) (p - 1) = p - 1 := by
      by_contra hne
      have : (1 + Nat.gcd (e - 1) (p - 1)) * (1 + Nat.gcd (e - 1) (q - 1)) < p * q :=
        Nat.mul_lt_mul_of_lt_of_le (by omega) (by omega) (by omega)
      omega
    have e2 : Nat.gcd (e - 1) (q - 1) = q - 1 := by
      by_contra hne
      have : (1 + Nat.gcd (e - 1) (p - 1)) * (1 + Nat.gcd (e - 1) (q - 1)) < p * q :=
        Nat.mul_lt_mul_of_le_of_lt (by omega) (by omega) (by omega)
      omega
    exact ⟨Nat.gcd_eq_right_iff_dvd.1 e1, Nat.gcd_eq_right_iff_dvd.1 e2⟩
  · rintro ⟨h1, h2⟩ x hx
    rw [Nat.gcd_eq_right h1, Nat.gcd_eq_right h2, Nat.add_sub_cancel' (by omega), Nat.add_sub_cancel' (by omega)] at hcard
    have hsub : {x | x < p * q ∧ encrypt cap ⟨big e, big (p * q)⟩ (big x) = .ok (big x)} ⊆ {x | x < p * q} :=
      fun y hy => hy.1
    have := Set.eq_of_subset_of_ncard_le hsub (by rw [hcard, hall]) (Set.finite_lt_nat _)
    have hx' : x ∈ {x | x < p * q} := hx
    rw [← this] at hx'
    exact hx'.2

/-- C123: `create_keys` accepts such exponents; with 1, all ciphertexts are the plaintexts, under every pair of primes. -/
theorem C123_exponent_one {cap : Nat → Nat} (hc : CapOk cap) (p q : Nat) (hp : p.Prime) (hq : q.Prime) (hpq : p ≠ q)
    (hlt : p * q < 2 ^ 128) : ∃ sk pk, createKeys (big p) (big q) (big 1) = .ok (sk, pk) ∧
      ∀ x, x < p * q → encrypt cap (.ofPublic pk) (big x) = .ok (big x) := by
  obtain ⟨d, h1, h2, h3⟩ := C48_create_keys p q 1 hp hq hlt (by norm_num) (Nat.coprime_one_left _)
  refine ⟨_, _, h1, ?_⟩
  exact (C123_useless_iff hc p q 1 hp hq hpq (by omega)
    (Nat.le_trans (Nat.size_le.2 hlt) (by norm_num)) (by rw [Nat.size_one]; norm_num)).2 ⟨by simp, by simp⟩

/-- Nine fixed points for the primes 61 and 53 and the exponent 3; 17 and 65537 have more. -/
example : (1 + Nat.gcd (3 - 1) (61 - 1)) * (1 + Nat.gcd (3 - 1) (53 - 1)) = 9 ∧
    (1 + Nat.gcd (17 - 1) (61 - 1)) * (1 + Nat.gcd (17 - 1) (53 - 1)) = 25 ∧ Nat.Prime 61 ∧ Nat.Prime 53 := by
  refine ⟨by decide, by decide, by norm_num, by norm_num⟩

/-- C123 applied: with the modulus 3233 and the exponent 17 there are 25 numbers that are not changed. -/
example : {x | x < 61 * 53 ∧ encrypt exactCap ⟨big 17, big (61 * 53)⟩ (big x) = .ok (big x)}.ncard = 25 ∧
    9 ≤ {x | x < 61 * 53 ∧ encrypt exactCap ⟨big 17, big (61 * 53)⟩ (big x) = .ok (big x)}.ncard := by
  have h1 : (61 * 53 : Nat).size ≤ 12 := Nat.size_le.2 (by norm_num)
  have h2 : (17 : Nat).size ≤ 12 := Nat.size_le.2 (by norm_num)
  refine ⟨?_, C123_at_least_nine exactCap_ok 61 53 17 (by norm_num) (by norm_num) (by norm_num) (by norm_num) (by norm_num)
    (by norm_num) (by omega) (by omega)⟩
  rw [C123_fixed_points exactCap_ok 61 53 17 (by norm_num) (by norm_num) (by norm_num) (by norm_num) (by omega) (by omega)]
  decide

end Verif.Props
