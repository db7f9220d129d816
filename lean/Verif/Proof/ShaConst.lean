import Verif.Spec.Sha
import Verif.Model.Sha

/-! # The SHA-2 constants are bits of roots of primes -/

namespace Verif.Model.Sha
open Verif
open Verif.Spec.Sha (prime cubeBits sqrtBits)

theorem floor_cube {p n b : Nat} (h1 : n ^ 3 ≤ p * 2 ^ (3 * b)) (h2 : p * 2 ^ (3 * b) < (n + 1) ^ 3) :
    ⌊((p : ℝ) ^ ((1 : ℝ) / 3)) * 2 ^ b⌋₊ = n := by
  have hp : (0 : ℝ) ≤ (p : ℝ) ^ ((1 : ℝ) / 3) * 2 ^ b := by positivity
  have hx : ((p : ℝ) ^ ((1 : ℝ) / 3) * 2 ^ b) ^ 3 = p * 2 ^ (3 * b) := by
    rw [mul_pow, ← Real.rpow_natCast, ← Real.rpow_mul (by positivity)]
    norm_num
    rw [← pow_mul, Nat.mul_comm]
    exact .inl rfl
  rw [Nat.floor_eq_iff hp]
  constructor
  · refine le_of_pow_le_pow_left₀ (n := 3) (by decide) hp ?_
    rw [hx]; exact_mod_cast h1
  · refine lt_of_pow_lt_pow_left₀ 3 (by positivity) ?_
    rw [hx]; exact_mod_cast h2

theorem floor_sqrt {p n b : Nat} (h1 : n ^ 2 ≤ p * 2 ^ (2 * b)) (h2 : p * 2 ^ (2 * b) < (n + 1) ^ 2) :
    ⌊(Real.sqrt p) * 2 ^ b⌋₊ = n := by
  have hp : (0 : ℝ) ≤ Real.sqrt p * 2 ^ b := by positivity
  have hx : (Real.sqrt p * 2 ^ b) ^ 2 = p * 2 ^ (2 * b) := by
    rw [mul_pow, Real.sq_sqrt (by positivity), ← pow_mul, Nat.mul_comm b 2]
  rw [Nat.floor_eq_iff hp]
  constructor
  · refine le_of_pow_le_pow_left₀ (n := 2) (by decide) hp ?_
    rw [hx]; exact_mod_cast h1
  · refine lt_of_pow_lt_pow_left₀ 2 (by positivity) ?_
    rw [hx]; exact_mod_cast h2

/-- Trial division, for computing. -/
def isPrimeB (n : Nat) : Bool := decide (2 ≤ n) && (List.range n).all fun d => d < 2 || n % d != 0

theorem isPrimeB_iff (n : Nat) : isPrimeB n = true ↔ n.Prime := by
  unfold isPrimeB
  rw [Nat.prime_def_lt]
  simp only [Bool.and_eq_true, decide_eq_true_eq, List.all_eq_true, List.mem_range, Bool.or_eq_true, bne_iff_ne, ne_eq]
  constructor
  · rintro ⟨h2, h⟩
    refine ⟨h2, fun m hm hd => ?_⟩
    rcases h m hm with h' | h'
    · have : m ≠ 0 := by rintro rfl; simp at hd; omega
      omega
    · exact absurd (Nat.mod_eq_zero_of_dvd hd) h'
  · rintro ⟨h2, h⟩
    refine ⟨h2, fun d hd => ?_⟩
    by_cases hd' : d < 2
    · exact .inl hd'
    · refine .inr fun h0 => ?_
      have := h d hd (Nat.dvd_of_mod_eq_zero h0)
      omega

/-- The primes below 410, by trial division. -/
def primeList : List Nat := (List.range 410).filter isPrimeB

theorem count_prime (n : Nat) : Nat.count Nat.Prime n = ((List.range n).filter isPrimeB).length := by
  induction n with
  | zero => rfl
  | succ n ih =>
    rw [Nat.count_succ, ih, List.range_succ, List.filter_append, List.length_append]
    by_cases h : n.Prime
    · simp [h, (isPrimeB_iff n).2 h]
    · have : isPrimeB n = false := by
        rw [Bool.eq_false_iff]; exact fun h' => h ((isPrimeB_iff n).1 h')
      simp [h, this]

theorem prime_eq (t : Nat) (h : t < primeList.length) : prime t = primeList[t] := by
  obtain ⟨p, hp⟩ : ∃ p, p = primeList[t] := ⟨_, rfl⟩
  have hmem : p ∈ primeList := hp ▸ List.getElem_mem h
  obtain ⟨hr, hP⟩ := List.mem_filter.1 hmem
  have hlt : p < 410 := List.mem_range.1 hr
  have hpp := (isPrimeB_iff p).1 hP
  have hsplit : primeList = (List.range p).filter isPrimeB ++ p :: (List.range' (p + 1) (410 - (p + 1))).filter isPrimeB := by
    unfold primeList
    have : List.range 410 = List.range p ++ p :: List.range' (p + 1) (410 - (p + 1)) := by
      rw [List.range_eq_range', List.range_eq_range', show (410 : Nat) = p + ((410 - (p + 1)) + 1) by omega,
        ← List.range'_append_1, List.range'_succ]
      simp only [List.append_cancel_left_eq, List.cons.injEq, Nat.zero_add, true_and]
      congr 1; omega
    rw [this, List.filter_append, List.filter_cons_of_pos hP]
  have hnd : primeList.Nodup := List.Nodup.filter _ List.nodup_range
  have hidx : primeList[Nat.count Nat.Prime p]? = some p := by
    rw [count_prime, hsplit]; simp
  have hl : Nat.count Nat.Prime p < primeList.length := by
    rw [count_prime, hsplit]; simp
  have : Nat.count Nat.Prime p = t := by
    rw [List.getElem?_eq_getElem hl] at hidx
    exact (List.Nodup.getElem_inj_iff hnd).1 ((Option.some.inj hidx).trans hp)
  rw [← hp, ← this]
  exact Nat.nth_count hpp

theorem primeList_eq : primeList = [2, 3, 5, 7, 11, 13, 17, 19, 23, 29, 31, 37, 41, 43, 47, 53, 59, 61, 67, 71,
    73, 79, 83, 89, 97, 101, 103, 107, 109, 113, 127, 131, 137, 139, 149, 151, 157, 163, 167, 173, 179, 181, 191,
    193, 197, 199, 211, 223, 227, 229, 233, 239, 241, 251, 257, 263, 269, 271, 277, 281, 283, 293, 307, 311, 313,
    317, 331, 337, 347, 349, 353, 359, 367, 373, 379, 383, 389, 397, 401, 409] := by decide +kernel

/-- `w` is the low part of the integer cube root of `p · 2^(3b)`, found by adding `c · 2^b` for `c ≤ 8`. -/
def cubeOk (b p w : Nat) : Bool :=
  (List.range 9).any fun c => decide ((w + c * 2 ^ b) ^ 3 ≤ p * 2 ^ (3 * b)) && decide (p * 2 ^ (3 * b) < (w + c * 2 ^ b + 1) ^ 3)

def sqrtOk (b p w : Nat) : Bool :=
  (List.range 9).any fun c => decide ((w + c * 2 ^ b) ^ 2 ≤ p * 2 ^ (2 * b)) && decide (p * 2 ^ (2 * b) < (w + c * 2 ^ b + 1) ^ 2)

theorem cubeBits_of_ok {b t : Nat} {w : BitVec b} (ht : t < primeList.length)
    (h : cubeOk b (primeList[t]) w.toNat = true) : cubeBits b t = w := by
  obtain ⟨c, -, hc⟩ := List.any_eq_true.1 h
  simp only [Bool.and_eq_true, decide_eq_true_eq] at hc
  unfold cubeBits
  rw [prime_eq t ht, floor_cube hc.1 hc.2]
  apply BitVec.eq_of_toNat_eq
  rw [BitVec.toNat_ofNat, Nat.add_mul_mod_self_right, Nat.mod_eq_of_lt w.isLt]

theorem sqrtBits_of_ok {b t : Nat} {w : BitVec b} (ht : t < primeList.length)
    (h : sqrtOk b (primeList[t]) w.toNat = true) : sqrtBits b t = w := by
  obtain ⟨c, -, hc⟩ := List.any_eq_true.1 h
  simp only [Bool.and_eq_true, decide_eq_true_eq] at hc
  unfold sqrtBits
  rw [prime_eq t ht, floor_sqrt hc.1 hc.2]
  apply BitVec.eq_of_toNat_eq
  rw [BitVec.toNat_ofNat, Nat.add_mul_mod_self_right, Nat.mod_eq_of_lt w.isLt]

theorem all_getElem {α β : Type} {p : α → β → Bool} {xs : List α} {ys : List β}
    (h : (xs.zip ys).all (fun z => p z.1 z.2) = true) (i : Nat) (h1 : i < xs.length) (h2 : i < ys.length) :
    p xs[i] ys[i] = true := by
  have := List.all_eq_true.1 h (xs[i], ys[i]) (by
    rw [← List.getElem_zip (h := by simp [h1, h2])]; exact List.getElem_mem _)
  exact this

theorem roundConstants_ok : ((primeList.take 64).zip (ROUND_CONSTANTS.toList.map BitVec.toNat)).all
    (fun z => cubeOk 32 z.1 z.2) = true := by rw [primeList_eq]; decide +kernel

theorem roundConstantsBig_ok : (primeList.zip (ROUND_CONSTANTS_BIG.toList.map BitVec.toNat)).all
    (fun z => cubeOk 64 z.1 z.2) = true := by rw [primeList_eq]; decide +kernel

theorem init256_ok : ((primeList.take 8).zip (INITIAL_HASH_256.toList.map BitVec.toNat)).all
    (fun z => sqrtOk 32 z.1 z.2) = true := by rw [primeList_eq]; decide +kernel

theorem init512_ok : ((primeList.take 8).zip (INITIAL_HASH_512.toList.map BitVec.toNat)).all
    (fun z => sqrtOk 64 z.1 z.2) = true := by rw [primeList_eq]; decide +kernel

theorem init384_ok : (((primeList.drop 8).take 8).zip (INITIAL_HASH_384.toList.map BitVec.toNat)).all
    (fun z => sqrtOk 64 z.1 z.2) = true := by rw [primeList_eq]; decide +kernel

theorem init224_eq : INITIAL_HASH_224.toList = INITIAL_HASH_384.toList.map (BitVec.setWidth 32) := by
  decide +kernel

theorem primeList_length : primeList.length = 80 := by rw [primeList_eq]; rfl

theorem roundConstants_eq (t : Nat) (ht : t < 64) : ROUND_CONSTANTS[t] = cubeBits 32 t := by
  have hl := primeList_length
  have := all_getElem roundConstants_ok t (by simp [hl, ht]) (by simp [ht])
  simp only [List.getElem_take, List.getElem_map, Vector.getElem_toList] at this
  exact (cubeBits_of_ok (by omega) this).symm

theorem roundConstantsBig_eq (t : Nat) (ht : t < 80) : ROUND_CONSTANTS_BIG[t] = cubeBits 64 t := by
  have hl := primeList_length
  have := all_getElem roundConstantsBig_ok t (by simp [hl, ht]) (by simp [ht])
  simp only [List.getElem_map, Vector.getElem_toList] at this
  exact (cubeBits_of_ok (by omega) this).symm

theorem init256_eq (t : Nat) (ht : t < 8) : INITIAL_HASH_256[t] = sqrtBits 32 t := by
  have hl := primeList_length
  have := all_getElem init256_ok t (by simp [hl, ht]) (by simp [ht])
  simp only [List.getElem_take, List.getElem_map, Vector.getElem_toList] at this
  exact (sqrtBits_of_ok (by omega) this).symm

theorem init512_eq (t : Nat) (ht : t < 8) : INITIAL_HASH_512[t] = sqrtBits 64 t := by
  have hl := primeList_length
  have := all_getElem init512_ok t (by simp [hl, ht]) (by simp [ht])
  simp only [List.getElem_take, List.getElem_map, Vector.getElem_toList] at this
  exact (sqrtBits_of_ok (by omega) this).symm

theorem init384_eq (t : Nat) (ht : t < 8) : INITIAL_HASH_384[t] = sqrtBits 64 (8 + t) := by
  have hl := primeList_length
  have := all_getElem init384_ok t (by simp [hl, ht]) (by simp [ht])
  simp only [List.getElem_take, List.getElem_drop, List.getElem_map, Vector.getElem_toList] at this
  exact (sqrtBits_of_ok (by omega) this).symm

theorem init224_eq' (t : Nat) (ht : t < 8) : INITIAL_HASH_224[t] = (sqrtBits 64 (8 + t)).setWidth 32 := by
  rw [← init384_eq t ht]
  have h := congrArg (fun l => l[t]?) init224_eq
  simpa [ht] using h

end Verif.Model.Sha
