import Verif.Props.RsaExact
import Verif.Props.KeyGen
import Mathlib.Algebra.Squarefree.Basic
import Mathlib.Data.Nat.Squarefree
import Mathlib.RingTheory.IntegralDomain
import Mathlib.FieldTheory.Finite.Basic

/-! # C132: which pairs of RSA keys work -/

namespace Verif.Props
open Verif Verif.Model.Big Verif.Model.Rsa Verif.Spec.Big

/-- Every number below the modulus `n` survives encryption with exponent `e` and decryption with exponent `d`. -/
def Works (cap : Nat → Nat) (n e d : Nat) : Prop :=
  ∀ m, m < n → (do decrypt cap ⟨big d, big n⟩ (← encrypt cap ⟨big e, big n⟩ (big m))) = .ok (big m)

/-! ## Helpers -/

theorem works_iff_pow {cap : Nat → Nat} (hc : CapOk cap) (n e d : Nat) (hn : 2 ≤ n) (hsn : n.size ≤ 2 ^ 31 - 8)
    (hse : e.size ≤ 2 ^ 32 - 8) (hsd : d.size ≤ 2 ^ 32 - 8) : Works cap n e d ↔ ∀ m, m < n → m ^ (e * d) % n = m := by
  have key : ∀ m, m < n → (do decrypt cap ⟨big d, big n⟩ (← encrypt cap ⟨big e, big n⟩ (big m))) =
      .ok (big (m ^ (e * d) % n)) := by
    intro m hm
    have h1 := C50_encrypt hc m e n hn hsn (Nat.le_trans (Nat.size_le_size hm.le) hsn) hse
    have h2 := C50_decrypt hc (m ^ e % n) d n hn hsn (Nat.le_trans (Nat.size_le_size h1.2.le) hsn) hsd
    simp only [h1.1, h2.1, bind, Except.bind]
    rw [← Nat.pow_mod, ← Nat.pow_mul]
  constructor
  · intro h m hm
    have h1 := h m hm
    rw [key m hm] at h1
    have h2 := congrArg val (Except.ok.inj h1)
    rwa [val_big, val_big] at h2
  · intro h m hm
    rw [key m hm, h m hm]

theorem pow_fixes_prime (r k : Nat) (hr : r.Prime) (hk : 1 ≤ k) (h : ∀ m, m < r → m ^ k ≡ m [MOD r]) : k ≡ 1 [MOD r - 1] := by
  have := Fact.mk hr
  obtain ⟨g, hg⟩ := IsCyclic.exists_generator (α := (ZMod r)ˣ)
  have ho : orderOf g = r - 1 := by
    rw [orderOf_eq_card_of_forall_mem_zpowers hg, Nat.card_eq_fintype_card, ZMod.card_units_eq_totient, Nat.totient_prime hr]
  have h1 := h (g : ZMod r).val (ZMod.val_lt _)
  rw [← ZMod.natCast_eq_natCast_iff] at h1
  push_cast at h1
  rw [ZMod.natCast_zmod_val] at h1
  have h2 : g ^ k = g := Units.ext (by simpa using h1)
  have h3 : g ^ (k - 1) = 1 := by
    have : g ^ (k - 1) * g = g := by rw [← pow_succ, Nat.sub_add_cancel hk, h2]
    exact mul_eq_right.1 this
  have h4 := orderOf_dvd_of_pow_eq_one h3
  rw [ho] at h4
  exact ((Nat.modEq_iff_dvd' hk).2 h4).symm

/-- Which exponents fix all residues. -/
theorem pow_fixes_iff (n k : Nat) (hn : 2 ≤ n) : (∀ m, m < n → m ^ k % n = m) ↔
    k = 1 ∨ (1 ≤ k ∧ Squarefree n ∧ ∀ r, r.Prime → r ∣ n → k ≡ 1 [MOD r - 1]) := by
  constructor
  · intro h
    have hk : 1 ≤ k := by
      by_contra h0
      have h1 := h 0 (by omega)
      rw [show k = 0 by omega, pow_zero, Nat.mod_eq_of_lt (by omega)] at h1
      omega
    by_cases h1 : k = 1
    · exact Or.inl h1
    · refine Or.inr ⟨hk, ?_, ?_⟩
      · rintro x ⟨t, ht⟩
        rw [Nat.isUnit_iff]
        by_contra hx
        have hx0 : x ≠ 0 := by rintro rfl; omega
        have ht0 : 0 < t := Nat.pos_of_ne_zero (by rintro rfl; omega)
        have hlt : x * t < n := by
          rw [ht, Nat.mul_assoc]
          exact lt_mul_of_one_lt_left (Nat.mul_pos (by omega) ht0) (by omega)
        have h2 := h (x * t) hlt
        have h3 : n ∣ (x * t) ^ k := by
          refine Dvd.dvd.trans ?_ (pow_dvd_pow _ (by omega : 2 ≤ k))
          exact ⟨t, by rw [ht]; ring⟩
        rw [Nat.mod_eq_zero_of_dvd h3] at h2
        have := Nat.mul_pos (by omega : 0 < x) ht0
        omega
      · intro r hr hrn
        apply pow_fixes_prime r k hr hk
        intro m hm
        have h2 := h m (Nat.lt_of_lt_of_le hm (Nat.le_of_dvd (by omega) hrn))
        have h3 : m ^ k ≡ m [MOD n] := by
          rw [Nat.ModEq, h2, Nat.mod_eq_of_lt (Nat.lt_of_lt_of_le hm (Nat.le_of_dvd (by omega) hrn))]
        exact h3.of_dvd hrn
  · rintro (rfl | ⟨hk, hsq, hr⟩) m hm
    · rw [pow_one, Nat.mod_eq_of_lt hm]
    · have h1 : m ^ k ≡ m [MOD n] := by
        have hle : m ≤ m ^ k := Nat.le_self_pow (by omega) m
        apply Nat.ModEq.symm
        rw [Nat.modEq_iff_dvd' hle, ← Nat.prod_primeFactors_of_squarefree hsq]
        apply Finset.prod_primes_dvd
        · intro r h
          exact (Nat.prime_of_mem_primeFactors h).prime
        · intro r h
          have hp := Nat.prime_of_mem_primeFactors h
          obtain ⟨j, hj⟩ := (Nat.modEq_iff_dvd' hk).1 (hr r hp (Nat.dvd_of_mem_primeFactors h)).symm
          exact (Nat.modEq_iff_dvd' hle).1 (Model.Rsa.pow_modEq_prime r m k hp j (by omega)).symm
      rw [Nat.ModEq, Nat.mod_eq_of_lt hm] at h1
      exact h1

/-! ## C132 -/

/-- C132: for keys of any size, whatever their origin: the private exponent undoes the public one on all numbers below the
modulus exactly if no square divides the modulus and the product of the exponents is 1 modulo `r - 1` for all its prime factors
`r`, or if both exponents are 1. -/
theorem C132_iff {cap : Nat → Nat} (hc : CapOk cap) (n e d : Nat) (hn : 2 ≤ n) (hsn : n.size ≤ 2 ^ 31 - 8)
    (hse : e.size ≤ 2 ^ 32 - 8) (hsd : d.size ≤ 2 ^ 32 - 8) : Works cap n e d ↔
      (e = 1 ∧ d = 1) ∨ (1 ≤ e * d ∧ Squarefree n ∧ ∀ r, r.Prime → r ∣ n → e * d ≡ 1 [MOD r - 1]) := by
  rw [works_iff_pow hc n e d hn hsn hse hsd, pow_fixes_iff n _ hn, mul_eq_one]

/-- C132: with a product of two different primes for the modulus the private exponents that work are those of C49 and no
others. -/
theorem C132_two_primes {cap : Nat → Nat} (hc : CapOk cap) (p q e d : Nat) (hp : p.Prime) (hq : q.Prime) (hpq : p ≠ q)
    (hsn : (p * q).size ≤ 2 ^ 31 - 8) (hse : e.size ≤ 2 ^ 32 - 8) (hsd : d.size ≤ 2 ^ 32 - 8) :
    Works cap (p * q) e d ↔ e * d ≡ 1 [MOD Nat.lcm (p - 1) (q - 1)] := by
  have hn : 2 ≤ p * q := Nat.le_trans hp.two_le (Nat.le_mul_of_pos_right p hq.pos)
  constructor
  · intro h
    apply Nat.ModEq.symm
    rcases (C132_iff hc _ e d hn hsn hse hsd).1 h with ⟨rfl, rfl⟩ | ⟨h1, _, h2⟩
    · rfl
    · rw [Nat.modEq_iff_dvd' h1]
      exact Nat.lcm_dvd ((Nat.modEq_iff_dvd' h1).1 (h2 p hp (Nat.dvd_mul_right p q)).symm)
        ((Nat.modEq_iff_dvd' h1).1 (h2 q hq (Nat.dvd_mul_left q p)).symm)
  · intro h m hm
    exact C49_roundtrip_any_size hc p q e d m hp hq hpq h hm hsn hse hsd

theorem private_exponent_lt (p q e : BigUint) (sk : PrivateKey) (pk : PublicKey) (hk : createKeys p q e = .ok (sk, pk)) :
    val sk.d < 2 ^ 128 := by
  obtain ⟨h1, h2, h3, _⟩ := C92_keys_only_if p q e sk pk hk
  have h := C127_create_keys p q e
  rw [hk] at h
  split at h
  · exact nomatch h
  · obtain ⟨d, hd, h4⟩ := h
    have h5 : val sk.d = d := by
      have := congrArg (fun x => val x.1.d) (Except.ok.inj h4)
      simpa only [val_big] using this
    rw [h5]
    have hl : Nat.lcm (val p - 1) (val q - 1) ≤ val p * val q := by
      rcases Nat.eq_zero_or_pos ((val p - 1) * (val q - 1)) with h0 | h0
      · rcases Nat.mul_eq_zero.1 h0 with h | h <;> rw [h] <;> simp
      · exact Nat.le_trans (Nat.le_of_dvd h0 (Nat.lcm_dvd_mul _ _)) (Nat.mul_le_mul (Nat.sub_le _ _) (Nat.sub_le _ _))
    generalize Nat.lcm (val p - 1) (val q - 1) = l at *
    obtain ⟨g1, g2, g3⟩ := hd
    rcases (by omega : l = 0 ∨ l = 1 ∨ 2 ≤ l) with hz | hz | hz
    · rw [g3 hz]; norm_num
    · rw [g2 hz]; split <;> norm_num
    · have := (g1 hz).2.1
      omega

theorem size_lt (x : Nat) (h : x < 2 ^ 128) : x.size ≤ 128 := by rw [Nat.size_le]; exact h

/-- C132: the keys that come out of `create_keys` for any three numbers work under the same condition. -/
theorem C132_create_keys {cap : Nat → Nat} (hc : CapOk cap) (p q e : BigUint) (sk : PrivateKey) (pk : PublicKey)
    (hk : createKeys p q e = .ok (sk, pk)) (hn : 2 ≤ val p * val q) :
    (∀ m, m < val p * val q → (do decrypt cap (.ofPrivate sk) (← encrypt cap (.ofPublic pk) (big m))) = .ok (big m)) ↔
      (val e = 1 ∧ val sk.d = 1) ∨ (1 ≤ val e * val sk.d ∧ Squarefree (val p * val q) ∧
        ∀ r, r.Prime → r ∣ val p * val q → val e * val sk.d ≡ 1 [MOD r - 1]) := by
  obtain ⟨h1, h2, h3, h4⟩ := C92_keys_normalised p q e sk pk hk
  obtain ⟨g1, g2, g3, _⟩ := C92_keys_sound p q e sk pk hk
  obtain ⟨_, _, f3, f4, _⟩ := C92_keys_only_if p q e sk pk hk
  have hd : val sk.d < 2 ^ 128 := private_exponent_lt p q e sk pk hk
  rw [← C132_iff hc (val p * val q) (val e) (val sk.d) hn (Nat.le_trans (size_lt _ f3) (by norm_num))
    (Nat.le_trans (size_lt _ f4) (by norm_num)) (Nat.le_trans (size_lt _ hd) (by norm_num))]
  unfold Works RsaEncryption.ofPrivate RsaEncryption.ofPublic
  rw [← g2, h1, g1, h2, h4, g3]
  simp only [val_big]

/-- C132: a prime given twice makes keys that lose numbers, unless both exponents are 1. -/
theorem C132_equal_primes {cap : Nat → Nat} (hc : CapOk cap) (p e : BigUint) (sk : PrivateKey) (pk : PublicKey)
    (hk : createKeys p p e = .ok (sk, pk)) (hp : 2 ≤ val p) :
    (∀ m, m < val p * val p → (do decrypt cap (.ofPrivate sk) (← encrypt cap (.ofPublic pk) (big m))) = .ok (big m)) ↔
      val e = 1 ∧ val sk.d = 1 := by
  rw [C132_create_keys hc p p e sk pk hk (Nat.le_trans hp (Nat.le_mul_of_pos_right _ (by omega)))]
  constructor
  · rintro (h | ⟨_, h, _⟩)
    · exact h
    · have := h (val p) (dvd_refl _)
      rw [Nat.isUnit_iff] at this
      omega
  · exact Or.inl

/-- Five twice: keys come out, and 5 is lost. -/
example : createKeys ⟨[5#8]⟩ ⟨[5#8]⟩ ⟨[3#8]⟩ = .ok (⟨⟨[25#8]⟩, ⟨[3#8]⟩⟩, ⟨⟨[25#8]⟩, ⟨[3#8]⟩⟩) ∧
    (do decrypt exactCap ⟨⟨[3#8]⟩, ⟨[25#8]⟩⟩ (← encrypt exactCap ⟨⟨[3#8]⟩, ⟨[25#8]⟩⟩ ⟨[5#8]⟩)) ≠ .ok ⟨[5#8]⟩ := by
  constructor <;> decide +kernel

/-- The theorem applied: 7 works with 3 and the primes 3 and 11, as do 27 and 37, while 5 does not. -/
example : Works exactCap (3 * 11) 3 7 ∧ Works exactCap (3 * 11) 3 27 ∧ Works exactCap (3 * 11) 3 37 ∧
    ¬ Works exactCap (3 * 11) 3 5 := by
  have hs : ∀ x : Nat, x < 2 ^ 128 → x.size ≤ 2 ^ 31 - 8 := fun x h => Nat.le_trans (size_lt x h) (by norm_num)
  have hs' : ∀ x : Nat, x < 2 ^ 128 → x.size ≤ 2 ^ 32 - 8 := fun x h => Nat.le_trans (size_lt x h) (by norm_num)
  have h := fun (d : Nat) (hd : d < 2 ^ 128) => C132_two_primes exactCap_ok 3 11 3 d (by norm_num) (by norm_num) (by norm_num)
    (hs _ (by norm_num)) (hs' _ (by norm_num)) (hs' d hd)
  exact ⟨(h 7 (by norm_num)).2 (by decide), (h 27 (by norm_num)).2 (by decide), (h 37 (by norm_num)).2 (by decide),
    fun hw => absurd ((h 5 (by norm_num)).1 hw) (by decide)⟩

/-- Keys that work although 561 = 3 * 11 * 17 is not prime, and keys that do not, from 9 and 5. -/
example : createKeys ⟨[0x31#8, 2#8]⟩ ⟨[5#8]⟩ ⟨[3#8]⟩ =
      .ok (⟨⟨[0xf5#8, 0x0a#8]⟩, ⟨[0xbb#8]⟩⟩, ⟨⟨[0xf5#8, 0x0a#8]⟩, ⟨[3#8]⟩⟩) ∧
    createKeys ⟨[9#8]⟩ ⟨[5#8]⟩ ⟨[3#8]⟩ = .ok (⟨⟨[45#8]⟩, ⟨[3#8]⟩⟩, ⟨⟨[45#8]⟩, ⟨[3#8]⟩⟩) := by
  constructor <;> decide +kernel

theorem C132_composite_works {cap : Nat → Nat} (hc : CapOk cap) : Works cap (561 * 5) 3 187 := by
  have hs : ∀ x : Nat, x < 2 ^ 128 → x.size ≤ 2 ^ 31 - 8 := fun x h => Nat.le_trans (size_lt x h) (by norm_num)
  have hs' : ∀ x : Nat, x < 2 ^ 128 → x.size ≤ 2 ^ 32 - 8 := fun x h => Nat.le_trans (size_lt x h) (by norm_num)
  rw [C132_iff hc (561 * 5) 3 187 (by norm_num) (hs _ (by norm_num)) (hs' _ (by norm_num)) (hs' _ (by norm_num))]
  refine Or.inr ⟨by norm_num, ?_, ?_⟩
  · rw [show 561 * 5 = 3 * (5 * (11 * 17)) by norm_num]
    rw [Nat.squarefree_mul (by norm_num), Nat.squarefree_mul (by norm_num), Nat.squarefree_mul (by norm_num)]
    exact ⟨Nat.prime_three.squarefree, Nat.prime_five.squarefree, (by norm_num : Nat.Prime 11).squarefree,
      (by norm_num : Nat.Prime 17).squarefree⟩
  · intro r hr hd
    have : r ∈ (561 * 5).primeFactors := Nat.mem_primeFactors.2 ⟨hr, hd, by norm_num⟩
    rw [show 561 * 5 = 3 * (5 * (11 * 17)) by norm_num, Nat.primeFactors_mul (by norm_num) (by norm_num),
      Nat.primeFactors_mul (by norm_num) (by norm_num), Nat.primeFactors_mul (by norm_num) (by norm_num),
      Nat.prime_three.primeFactors, Nat.prime_five.primeFactors, (by norm_num : Nat.Prime 11).primeFactors,
      (by norm_num : Nat.Prime 17).primeFactors] at this
    simp only [Finset.mem_union, Finset.mem_singleton] at this
    rcases this with rfl | rfl | rfl | rfl <;> decide

/-- C132 applied: a modulus that is no product of two primes, and a square. -/
example : Works exactCap 2805 3 187 ∧ ¬ Works exactCap 25 3 3 := by
  have hs : ∀ x : Nat, x < 2 ^ 128 → x.size ≤ 2 ^ 31 - 8 := fun x h => Nat.le_trans (size_lt x h) (by norm_num)
  have hs' : ∀ x : Nat, x < 2 ^ 128 → x.size ≤ 2 ^ 32 - 8 := fun x h => Nat.le_trans (size_lt x h) (by norm_num)
  refine ⟨C132_composite_works exactCap_ok, fun h => ?_⟩
  rcases (C132_iff exactCap_ok 25 3 3 (by norm_num) (hs _ (by norm_num)) (hs' _ (by norm_num)) (hs' _ (by norm_num))).1 h with
    h | ⟨-, h, -⟩
  · omega
  · have := h 5 ⟨1, rfl⟩
    rw [Nat.isUnit_iff] at this
    omega

end Verif.Props
