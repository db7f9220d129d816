import Verif.Proof.Rsa

/-! # Key generation for arbitrary arguments -/

namespace Verif.Model.Rsa
open Verif Verif.Model.Big Verif.Spec.Big

theorem i128_inv {t s : Int} (h : i128 t = .ok s) : s = t ∧ -2 ^ 127 ≤ t ∧ t < 2 ^ 127 := by
  unfold i128 at h
  split at h
  · rename_i hc; cases h; exact ⟨rfl, hc⟩
  · cases h

/-- Whatever the modulus: if the loop ends, the coefficient it returns is right. -/
theorem inverseLoop_sound (n : Int) (a : Nat) (fuel r newR : Nat) (t newT : Int) (hr : r < 2 ^ 128) (hnr : newR < 2 ^ 128)
    (ht : -2 ^ 127 ≤ t ∧ t < 2 ^ 127) (hnt : -2 ^ 127 ≤ newT ∧ newT < 2 ^ 127)
    (hb1 : n ∣ t * a - r) (hb2 : newR ≠ 0 → n ∣ newT * a - newR) (r' : Nat) (t' : Int)
    (h : inverseLoop fuel r newR t newT = .ok (r', t')) : n ∣ t' * a - r' ∧ -2 ^ 127 ≤ t' ∧ t' < 2 ^ 127 := by
  induction fuel generalizing r newR t newT with
  | zero => cases h
  | succ fuel ih =>
    unfold inverseLoop at h
    by_cases h0 : newR = 0
    · rw [if_neg (by simpa using h0)] at h
      cases h
      exact ⟨hb1, ht⟩
    · rw [if_pos h0] at h
      have hqr : r / newR * newR ≤ r := Nat.div_mul_le_self r newR
      have e1 : divU r newR = .ok (r / newR) := by unfold divU; rw [if_neg h0]
      have e2 : mulU128 (r / newR) newR = .ok (r / newR * newR) := by unfold mulU128; rw [if_pos (by omega)]
      have e3 : subU r (r / newR * newR) = .ok (r - r / newR * newR) := by
        unfold subU; rw [if_pos hqr]
      simp only [e1, e2, e3, bind, Except.bind] at h
      cases h4 : i128 (asI128 (r / newR) * newT) with
      | error e => rw [h4] at h; cases h
      | ok x =>
        rw [h4] at h
        simp only at h
        cases h5 : i128 (t - x) with
        | error e => rw [h5] at h; cases h
        | ok y =>
          rw [h5] at h
          simp only at h
          obtain ⟨ex, _, _⟩ := i128_inv h4
          obtain ⟨ey, hy⟩ := i128_inv h5
          rw [← ey] at hy
          refine ih newR (r - r / newR * newR) newT y hnr (by omega) hnt hy (hb2 h0) ?_ h
          intro hne
          have hq : r / newR < 2 ^ 127 := by
            by_contra hq
            have hq : 2 ^ 127 ≤ r / newR := by omega
            have h1 : newR = 1 := by
              by_contra h1
              have : 2 ^ 127 * 2 ≤ r / newR * newR := Nat.mul_le_mul hq (by omega)
              omega
            rw [h1] at hne
            simp at hne
          have hasI : asI128 (r / newR) = (r / newR : Nat) := by unfold asI128; rw [if_pos hq]
          rw [hasI] at ex
          have e : y * a - (r - r / newR * newR : Nat) =
              (t * a - r) - (r / newR : Nat) * (newT * a - newR) := by
            rw [ey, ex, Nat.cast_sub hqr]; push_cast; ring
          rw [e]
          exact dvd_sub hb1 (Dvd.dvd.mul_left (hb2 h0) _)

/-- Whatever the arguments: what `inverse` returns is an inverse. -/
theorem inverse_sound (a n d : Nat) (ha : a < 2 ^ 128) (hn : n < 2 ^ 128) (h : inverse a n = .ok (some d)) :
    a * d ≡ 1 [MOD n] ∧ d < 2 ^ 128 := by
  by_cases hsmall : 0 < n ∧ n < 2 ^ 127
  · have := inverse_ok a n ha hsmall.1 hsmall.2
    by_cases hg : Nat.gcd a n = 1
    · obtain ⟨t, h1, h2, h3⟩ := this.1 hg
      have e : t = d := Option.some.inj (Except.ok.inj (h1.symm.trans h))
      subst e
      exact ⟨h3, by omega⟩
    · rw [this.2 hg] at h
      cases h
  · unfold inverse at h
    cases hl : inverseLoop (a + 1) n a 0 1 with
    | error e => rw [hl] at h; cases h
    | ok p =>
      obtain ⟨r, t⟩ := p
      rw [hl] at h
      simp only [bind, Except.bind] at h
      obtain ⟨h1, h2, h3⟩ := inverseLoop_sound n a (a + 1) n a 0 1 hn ha (by omega) (by omega) (by simp) (by simp) r t hl
      by_cases hr : r ≠ 1
      · rw [if_pos hr] at h; cases h
      · rw [if_neg hr] at h
        have hr1 : r = 1 := by omega
        subst hr1
        by_cases hneg : t < 0
        · rw [if_pos hneg] at h
          cases h6 : i128 (t + asI128 n) with
          | error e => rw [h6] at h; cases h
          | ok x =>
            rw [h6] at h
            have e : asU128 x = d := Option.some.inj (Except.ok.inj h)
            obtain ⟨ex, hx1, hx2⟩ := i128_inv h6
            by_cases hn0 : n = 0
            · -- with modulus 0 the coefficient is not negative
              exfalso
              subst hn0
              have : (0 : Int) ∣ t * a - 1 := by simpa using h1
              rw [zero_dvd_iff] at this
              have h7 : t * a = 1 := by omega
              have : (a : Int) ∣ 1 := ⟨t, by rw [← h7, mul_comm]⟩
              have ha1 : (a : Int) = 1 := Int.eq_one_of_dvd_one (Int.natCast_nonneg a) this
              rw [ha1] at h7
              omega
            · have hbig : ¬ n < 2 ^ 127 := by omega
              have hasI : asI128 n = n - 2 ^ 128 := by unfold asI128; rw [if_neg hbig]
              rw [hasI] at ex hx1 hx2
              have hx : x % 2 ^ 128 = t + n := by
                rw [ex, show t + ((n : Int) - 2 ^ 128) = (t + n) + 2 ^ 128 * (-1) by ring, Int.add_mul_emod_self_left,
                  Int.emod_eq_of_lt (by omega) (by omega)]
              unfold asU128 at e
              rw [hx] at e
              refine ⟨?_, by omega⟩
              rw [← e, ← Int.natCast_modEq_iff]
              push_cast
              rw [Int.toNat_of_nonneg (by omega)]
              apply Int.ModEq.symm
              rw [Int.modEq_iff_dvd]
              have : (a : Int) * (t + n) - 1 = (t * a - 1) + n * a := by ring
              rw [this]
              exact dvd_add (by simpa using h1) (dvd_mul_right _ _)
        · rw [if_neg hneg] at h
          have e : asU128 t = d := Option.some.inj (Except.ok.inj h)
          rw [asU128_ok t (by omega) h3] at e
          refine ⟨?_, by omega⟩
          rw [← e, ← Int.natCast_modEq_iff]
          push_cast
          rw [Int.toNat_of_nonneg (by omega)]
          apply Int.ModEq.symm
          rw [Int.modEq_iff_dvd, Int.mul_comm]
          simpa using h1

theorem lcm_inv {a b l : Nat} (h : lcm a b = .ok l) : l = Nat.lcm a b ∧ a * b < 2 ^ 128 := by
  unfold lcm mulU128 at h
  by_cases hc : a * b < 2 ^ 128
  · rw [if_pos hc] at h
    simp only [bind, Except.bind, divU] at h
    split at h
    · cases h
    · exact ⟨(Except.ok.inj h).symm, hc⟩
  · rw [if_neg hc] at h; cases h

/-- What comes out of key generation, whatever went in. -/
theorem createKeys_sound (p q e : BigUint) (sk : PrivateKey) (pk : PublicKey) (h : createKeys p q e = .ok (sk, pk)) :
    ∃ d, 1 ≤ val p ∧ 1 ≤ val q ∧ val p * val q < 2 ^ 128 ∧ val e < 2 ^ 128 ∧
      val e * d ≡ 1 [MOD Nat.lcm (val p - 1) (val q - 1)] ∧
      sk = ⟨big (val p * val q), big d⟩ ∧ pk = ⟨big (val p * val q), big (val e)⟩ := by
  unfold createKeys at h
  rw [Big.asU128_eq, Big.asU128_eq, Big.asU128_eq] at h
  have hval : ∀ x : BigUint, x.bytes.length ≤ 16 → val x < 2 ^ 128 := by
    intro x hx
    have h1 := leVal_lt x.bytes
    have h2 : (256 : Nat) ^ x.bytes.length ≤ 256 ^ 16 := Nat.pow_le_pow_right (by omega) hx
    have h3 : (256 : Nat) ^ 16 = 2 ^ 128 := by norm_num
    unfold val
    omega
  by_cases hp : p.bytes.length ≤ 16
  · by_cases hq : q.bytes.length ≤ 16
    · by_cases he : e.bytes.length ≤ 16
      · rw [if_pos hp, if_pos hq, if_pos he] at h
        have e2 : ∀ n, n < 2 ^ 128 → (BitVec.ofNat 128 n).toNat = n := by
          intro n h; rw [BitVec.toNat_ofNat, Nat.mod_eq_of_lt h]
        simp only [bind, Except.bind, unwrapResult, e2 _ (hval p hp), e2 _ (hval q hq), e2 _ (hval e he),
          Big.fromU128_eq] at h
        by_cases hpq : val p * val q < 2 ^ 128
        · have e3 : mulU128 (val p) (val q) = .ok (val p * val q) := by unfold mulU128; rw [if_pos hpq]
          rw [e3] at h
          simp only at h
          by_cases hp1 : 1 ≤ val p
          · by_cases hq1 : 1 ≤ val q
            · have e4 : subU (val p) 1 = .ok (val p - 1) := by unfold subU; rw [if_pos hp1]
              have e5 : subU (val q) 1 = .ok (val q - 1) := by unfold subU; rw [if_pos hq1]
              rw [e4, e5] at h
              simp only at h
              cases hl : lcm (val p - 1) (val q - 1) with
              | error x => rw [hl] at h; cases h
              | ok l =>
                rw [hl] at h
                simp only at h
                obtain ⟨rfl, hab⟩ := lcm_inv hl
                cases hi : inverse (val e) (Nat.lcm (val p - 1) (val q - 1)) with
                | error x => rw [hi] at h; cases h
                | ok o =>
                  rw [hi] at h
                  cases o with
                  | none => cases h
                  | some d =>
                    have hll : Nat.lcm (val p - 1) (val q - 1) < 2 ^ 128 :=
                      Nat.lt_of_le_of_lt (Nat.div_le_self _ _) hab
                    obtain ⟨g1, g2⟩ := inverse_sound _ _ d (hval e he) hll hi
                    simp only [unwrapOption, e2 _ hpq, e2 _ g2, pure, Except.pure] at h
                    have := Except.ok.inj h
                    simp only [Prod.mk.injEq] at this
                    exact ⟨d, hp1, hq1, hpq, hval e he, g1, this.1.symm, this.2.symm⟩
            · have e4 : subU (val p) 1 = .ok (val p - 1) := by unfold subU; rw [if_pos hp1]
              have e5 : subU (val q) 1 = .error .overflow := by unfold subU; rw [if_neg hq1]
              rw [e4, e5] at h; cases h
          · have e4 : subU (val p) 1 = .error .overflow := by unfold subU; rw [if_neg hp1]
            rw [e4] at h; cases h
        · have e3 : mulU128 (val p) (val q) = .error .overflow := by unfold mulU128; rw [if_neg hpq]
          rw [e3] at h; cases h
      · rw [if_pos hp, if_pos hq, if_neg he] at h; cases h
    · rw [if_pos hp, if_neg hq] at h; cases h
  · rw [if_neg hp] at h; cases h

end Verif.Model.Rsa
