import Verif.Proof.KeyGen
import Verif.Props.Big

/-! # C127: key generation, exactly

What `create_keys` does on every triple of `BigUint`s. -/

namespace Verif.Props
open Verif Verif.Model.Big Verif.Model.Rsa Verif.Spec.Big

/-- The panic that `create_keys` ends with, for numbers `p`, `q`, `e` stored in `lp`, `lq`, `le` bytes; `none` if it returns.
`l` is the least common multiple of `p - 1` and `q - 1`. -/
def keyGenPanic (lp lq le p q e : Nat) : Option Panic :=
  let l := Nat.lcm (p - 1) (q - 1)
  if 16 < lp ∨ 16 < lq ∨ 16 < le then some .unwrap                 -- does not fit 128 bits
  else if p = 0 ∨ q = 0 ∨ 2 ^ 128 ≤ p * q then some .overflow      -- `p - 1`, `q - 1` or `p * q`
  else if p = 1 ∧ q = 1 then some .divZero                         -- the greatest common divisor of 0 and 0
  else if Nat.gcd e l ≠ 1 then some .unwrap                        -- no private exponent
  else if l < 2 ^ 127 then none
  else if e % l = 1 ∨ (e % l = l - 1 ∧ l ≠ 2 ^ 127 + 1) then none
  else some .overflow                                              -- the coefficients do not fit `i128`

/-- The private exponent: the least positive inverse of `e` modulo `l`; with `l = 1` it is 0 unless `e = 1`, and with `l = 0`
it is 1. -/
def IsPrivateExponent (e l d : Nat) : Prop :=
  (2 ≤ l → 0 < d ∧ d < l ∧ e * d ≡ 1 [MOD l]) ∧ (l = 1 → d = if e = 1 then 1 else 0) ∧ (l = 0 → d = 1)

/-- There is only one. -/
theorem C127_exponent_unique (e l d d' : Nat) (h : IsPrivateExponent e l d) (h' : IsPrivateExponent e l d') : d = d' := by
  rcases Nat.lt_or_ge l 2 with hl | hl
  · rcases (by omega : l = 0 ∨ l = 1) with rfl | rfl
    · rw [h.2.2 rfl, h'.2.2 rfl]
    · rw [h.2.1 rfl, h'.2.1 rfl]
  · obtain ⟨_, h2, h3⟩ := h.1 hl
    obtain ⟨_, h2', h3'⟩ := h'.1 hl
    have hcop : Nat.gcd l e = 1 := by
      have h6 := h3.gcd_eq
      rw [Nat.gcd_one_left] at h6
      exact (Nat.Coprime.coprime_mul_right h6).symm
    have := Nat.ModEq.cancel_left_of_coprime hcop (h3.trans h3'.symm)
    rwa [Nat.ModEq, Nat.mod_eq_of_lt h2, Nat.mod_eq_of_lt h2'] at this

theorem exponent_of_inverse (e l : Nat) (hl : 2 ≤ l) (d : Nat) (hd : d ≤ l) (h : e * d ≡ 1 [MOD l]) :
    IsPrivateExponent e l d := by
  refine ⟨fun _ => ⟨?_, ?_, h⟩, by omega, by omega⟩
  · rcases Nat.eq_zero_or_pos d with rfl | h0
    · rw [Nat.mul_zero, Nat.ModEq, Nat.zero_mod, Nat.mod_eq_of_lt (by omega)] at h
      omega
    · exact h0
  · rcases Nat.lt_or_ge d l with h1 | h1
    · exact h1
    · have : d = l := by omega
      subst this
      rw [Nat.ModEq, Nat.mul_mod_left, Nat.mod_eq_of_lt (by omega)] at h
      omega

/-- `inverse`, for every modulus that occurs. -/
theorem inverse_exact (e l : Nat) (he : e < 2 ^ 128) (hl : l < 2 ^ 128) (hne : l ≠ 2 ^ 127) :
    if Nat.gcd e l ≠ 1 then inverse e l = .ok none
    else if l < 2 ^ 127 ∨ e % l = 1 ∨ (e % l = l - 1 ∧ l ≠ 2 ^ 127 + 1) then
      ∃ d, inverse e l = .ok (some d) ∧ d < 2 ^ 128 ∧ IsPrivateExponent e l d
    else inverse e l = .error .overflow := by
  by_cases hg : Nat.gcd e l = 1
  · rw [if_neg (by simpa using hg)]
    by_cases hs : l < 2 ^ 127
    · rw [if_pos (Or.inl hs)]
      rcases (by omega : l = 0 ∨ l = 1 ∨ 2 ≤ l) with rfl | rfl | h2
      · rw [Nat.gcd_zero_right] at hg
        subst hg
        exact ⟨1, Model.Rsa.inverse_mod_zero, by norm_num, by omega, by omega, by omega⟩
      · refine ⟨_, Model.Rsa.inverse_mod_one e he, ?_, by omega, by omega, by omega⟩
        split <;> norm_num
      · obtain ⟨d, h1, h3, h4⟩ := (Model.Rsa.inverse_ok e l he (by omega) hs).1 hg
        exact ⟨d, h1, by omega, exponent_of_inverse e l h2 d h3 h4⟩
    · have h2 : 2 ^ 127 < l := by omega
      have hx := Model.Rsa.inverse_large e l he h2 hl hg
      by_cases h1 : e % l = 1
      · rw [if_pos (Or.inr (Or.inl h1)), hx, if_pos h1]
        refine ⟨1, rfl, by norm_num, exponent_of_inverse e l (by omega) 1 (by omega) ?_⟩
        rw [Nat.mul_one, Nat.ModEq, h1, Nat.mod_eq_of_lt (by omega)]
      · by_cases h3 : e % l = l - 1 ∧ l ≠ 2 ^ 127 + 1
        · rw [if_pos (Or.inr (Or.inr h3)), hx, if_neg h1, if_pos h3]
          refine ⟨l - 1, rfl, by omega, exponent_of_inverse e l (by omega) _ (by omega) ?_⟩
          obtain ⟨k, rfl⟩ : ∃ k, l = k + 1 := ⟨l - 1, by omega⟩
          have hk : e ≡ k [MOD k + 1] := by
            rw [Nat.ModEq, h3.1, Nat.add_sub_cancel, Nat.mod_eq_of_lt (by omega)]
          have hkk : k * k ≡ 1 [MOD k + 1] := by
            obtain ⟨j, rfl⟩ : ∃ j, k = j + 1 := ⟨k - 1, by omega⟩
            have : (j + 1) * (j + 1) = 1 + (j + 1 + 1) * j := by ring
            rw [this, Nat.ModEq, Nat.add_mul_mod_self_left]
          rw [Nat.add_sub_cancel]
          exact (hk.mul_right k).trans hkk
        · rw [if_neg (by rintro (h | h | h) <;> [omega; exact h1 h; exact h3 h]), hx, if_neg h1, if_neg h3]
  · rw [if_pos hg]
    exact Model.Rsa.inverse_none e l he hl hg

/-- C127: what `create_keys` does, for all arguments whatsoever: `keyGenPanic` says whether and how it panics, and otherwise
the keys consist of the product, the given exponent and the private exponent, all normalised. -/
theorem C127_create_keys (p q e : BigUint) :
    match keyGenPanic p.bytes.length q.bytes.length e.bytes.length (val p) (val q) (val e) with
    | some panic => createKeys p q e = .error panic
    | none => ∃ d, IsPrivateExponent (val e) (Nat.lcm (val p - 1) (val q - 1)) d ∧
        createKeys p q e = .ok (⟨big (val p * val q), big d⟩, ⟨big (val p * val q), big (val e)⟩) := by
  have hval : ∀ x : BigUint, x.bytes.length ≤ 16 → val x < 2 ^ 128 := by
    intro x hx
    have h1 := leVal_lt x.bytes
    have h2 : (256 : Nat) ^ x.bytes.length ≤ 256 ^ 16 := Nat.pow_le_pow_right (by omega) hx
    have h3 : (256 : Nat) ^ 16 = 2 ^ 128 := by norm_num
    unfold val
    omega
  have e2 : ∀ n, n < 2 ^ 128 → (BitVec.ofNat 128 n).toNat = n := by
    intro n h; rw [BitVec.toNat_ofNat, Nat.mod_eq_of_lt h]
  unfold keyGenPanic
  by_cases h16 : 16 < p.bytes.length ∨ 16 < q.bytes.length ∨ 16 < e.bytes.length
  · rw [if_pos h16]
    unfold createKeys
    rw [Model.Big.asU128_eq, Model.Big.asU128_eq, Model.Big.asU128_eq]
    by_cases hp : p.bytes.length ≤ 16
    · by_cases hq : q.bytes.length ≤ 16
      · rw [if_pos hp, if_pos hq, if_neg (by omega)]; rfl
      · rw [if_pos hp, if_neg hq]; rfl
    · rw [if_neg hp]; rfl
  rw [if_neg h16]
  have hp := hval p (by omega)
  have hq := hval q (by omega)
  have he := hval e (by omega)
  have hstart : createKeys p q e = (do
      let n ← mulU128 (val p) (val q)
      let l ← Model.Rsa.lcm (← subU (val p) 1) (← subU (val q) 1)
      let d ← unwrapOption (← inverse (val e) l)
      return (⟨big (BitVec.ofNat 128 n).toNat, big (BitVec.ofNat 128 d).toNat⟩,
        ⟨big (BitVec.ofNat 128 n).toNat, big (val e)⟩)) := by
    unfold createKeys
    rw [Model.Big.asU128_eq, Model.Big.asU128_eq, Model.Big.asU128_eq, if_pos (by omega), if_pos (by omega),
      if_pos (by omega)]
    simp only [bind, Except.bind, unwrapResult, e2 _ hp, e2 _ hq, e2 _ he, Model.Big.fromU128_eq]
  rw [hstart]
  generalize val p = p at *
  generalize val q = q at *
  generalize val e = e at *
  by_cases hov : p = 0 ∨ q = 0 ∨ 2 ^ 128 ≤ p * q
  · rw [if_pos hov]
    by_cases hpq : p * q < 2 ^ 128
    · have e3 : mulU128 p q = .ok (p * q) := by unfold mulU128; rw [if_pos hpq]
      by_cases hp0 : p = 0
      · have e4 : subU p 1 = .error .overflow := by unfold subU; rw [if_neg (by omega)]
        simp only [e3, e4, bind, Except.bind]
      · have e4 : subU p 1 = .ok (p - 1) := by unfold subU; rw [if_pos (by omega)]
        have e5 : subU q 1 = .error .overflow := by unfold subU; rw [if_neg (by omega)]
        simp only [e3, e4, e5, bind, Except.bind]
    · have e3 : mulU128 p q = .error .overflow := by unfold mulU128; rw [if_neg hpq]
      simp only [e3, bind, Except.bind]
  rw [if_neg hov]
  have hpq : p * q < 2 ^ 128 := by omega
  have e3 : mulU128 p q = .ok (p * q) := by unfold mulU128; rw [if_pos hpq]
  have e4 : subU p 1 = .ok (p - 1) := by unfold subU; rw [if_pos (by omega)]
  have e5 : subU q 1 = .ok (q - 1) := by unfold subU; rw [if_pos (by omega)]
  have hab : (p - 1) * (q - 1) < 2 ^ 128 := Nat.lt_of_le_of_lt (Nat.mul_le_mul (by omega) (by omega)) hpq
  have e6 : mulU128 (p - 1) (q - 1) = .ok ((p - 1) * (q - 1)) := by unfold mulU128; rw [if_pos hab]
  by_cases hone : p = 1 ∧ q = 1
  · rw [if_pos hone]
    obtain ⟨rfl, rfl⟩ := hone
    rfl
  rw [if_neg hone]
  have hg : Nat.gcd (p - 1) (q - 1) ≠ 0 := by
    intro h
    have := Nat.gcd_eq_zero_iff.1 h
    omega
  have e7 : Model.Rsa.lcm (p - 1) (q - 1) = .ok (Nat.lcm (p - 1) (q - 1)) := by
    unfold Model.Rsa.lcm divU
    simp only [e6, bind, Except.bind]
    rw [if_neg hg]
    rfl
  simp only [e3, e4, e5, e7, bind, Except.bind]
  have hl : Nat.lcm (p - 1) (q - 1) < 2 ^ 128 := Nat.lt_of_le_of_lt (Nat.div_le_self _ _) hab
  have hi := inverse_exact e (Nat.lcm (p - 1) (q - 1)) he hl (Model.Rsa.lcm_ne p q hpq)
  generalize Nat.lcm (p - 1) (q - 1) = l at *
  by_cases hgc : Nat.gcd e l ≠ 1
  · rw [if_pos hgc] at hi ⊢
    rw [hi]
    rfl
  rw [if_neg hgc] at hi ⊢
  by_cases h1 : l < 2 ^ 127
  · rw [if_pos (Or.inl h1)] at hi
    rw [if_pos h1]
    obtain ⟨d, hd1, hd2, hd3⟩ := hi
    refine ⟨d, hd3, ?_⟩
    simp only [hd1, unwrapOption, e2 _ hpq, e2 _ hd2]
    rfl
  · rw [if_neg h1]
    by_cases h2 : e % l = 1 ∨ (e % l = l - 1 ∧ l ≠ 2 ^ 127 + 1)
    · rw [if_pos (Or.inr h2)] at hi
      rw [if_pos h2]
      obtain ⟨d, hd1, hd2, hd3⟩ := hi
      refine ⟨d, hd3, ?_⟩
      simp only [hd1, unwrapOption, e2 _ hpq, e2 _ hd2]
      rfl
    · rw [if_neg (by rintro (h | h); exacts [h1 h, h2 h])] at hi
      rw [if_neg h2, hi]

/-- All cases occur. No primes are needed for them: 2^64 and 2^64 - 1, and 4 and 56713727820156410577229101238628035244, have
moduli of the exponents above 2^127; the second one is 2^127 + 1. -/
example :
    keyGenPanic 17 1 1 0 5 3 = some .unwrap ∧ keyGenPanic 0 1 1 0 5 3 = some .overflow ∧
    keyGenPanic 9 9 1 (2 ^ 64) (2 ^ 64) 3 = some .overflow ∧ keyGenPanic 1 1 1 1 1 3 = some .divZero ∧
    keyGenPanic 1 1 1 7 11 3 = some .unwrap ∧ keyGenPanic 1 1 1 61 53 17 = none ∧
    keyGenPanic 9 8 1 (2 ^ 64) (2 ^ 64 - 1) 1 = none ∧ keyGenPanic 9 8 1 (2 ^ 64) (2 ^ 64 - 1) 11 = some .overflow ∧
    keyGenPanic 9 8 16 (2 ^ 64) (2 ^ 64 - 1) (Nat.lcm (2 ^ 64 - 1) (2 ^ 64 - 2) - 1) = none ∧
    keyGenPanic 1 16 16 4 56713727820156410577229101238628035244 (2 ^ 127) = some .overflow ∧
    IsPrivateExponent 17 (Nat.lcm 60 52) 413 := by
  refine ⟨by decide +kernel, by decide +kernel, by decide +kernel, by decide +kernel, by decide +kernel, by decide +kernel,
    by decide +kernel, by decide +kernel, by decide +kernel, by decide +kernel, ?_⟩
  refine ⟨fun _ => ⟨by decide, by decide, by decide⟩, by decide, by decide⟩

/-- C127: for the numbers that key generation is meant for, two primes, the last case does not occur: the least
common multiple is below 2^127, so that keys come out whenever there are some. -/
theorem C127_primes (p q e : Nat) (hp : p.Prime) (hq : q.Prime) (hpq : p * q < 2 ^ 128) (he : e < 2 ^ 128) :
    keyGenPanic (big p).bytes.length (big q).bytes.length (big e).bytes.length p q e =
      if Nat.gcd e (Nat.lcm (p - 1) (q - 1)) = 1 then none else some .unwrap := by
  have hp2 := hp.two_le
  have hq2 := hq.two_le
  have hpl : p < 2 ^ 128 := Nat.lt_of_le_of_lt (Nat.le_mul_of_pos_right p (by omega)) hpq
  have hql : q < 2 ^ 128 := Nat.lt_of_le_of_lt (Nat.le_mul_of_pos_left q (by omega)) hpq
  have hlen : ∀ n, n < 2 ^ 128 → (big n).bytes.length ≤ 16 := fun n h => Model.Big.length_le_iff.2 (by omega)
  have h1 := hlen p hpl
  have h2 := hlen q hql
  have h3 := hlen e he
  have hl := Model.Rsa.lcm_lt p q hp hq hpq
  unfold keyGenPanic
  rw [if_neg (by omega), if_neg (by omega), if_neg (by omega)]
  by_cases hg : Nat.gcd e (Nat.lcm (p - 1) (q - 1)) = 1
  · rw [if_neg (by simpa using hg), if_pos hl, if_pos hg]
  · rw [if_pos hg, if_neg hg]

/-- C127 applied: the primes 61 and 53, with a public exponent that has an inverse and with one that has none. -/
example : keyGenPanic (big 61).bytes.length (big 53).bytes.length (big 17).bytes.length 61 53 17 = none ∧
    keyGenPanic (big 61).bytes.length (big 53).bytes.length (big 3).bytes.length 61 53 3 = some .unwrap :=
  ⟨by rw [C127_primes 61 53 17 (by decide) (by decide) (by norm_num) (by norm_num)]; decide,
    by rw [C127_primes 61 53 3 (by decide) (by decide) (by norm_num) (by norm_num)]; decide⟩
example (d : Nat) (h : IsPrivateExponent 17 780 d) : d = 413 := C127_exponent_unique 17 780 d 413 h (by simp only [IsPrivateExponent]; decide)

end Verif.Props
