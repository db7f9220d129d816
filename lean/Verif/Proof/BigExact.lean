import Verif.Proof.Big
import Mathlib.Data.List.TakeWhile

/-! # Lemmas about un-normalised `BigUint`s -/

namespace Verif.Model.Big
open Verif Verif.Spec.Big

theorem not_norm_concat {x : BigUint} (h : ¬ Normalised x) : ∃ l, x.bytes = l ++ [0#8] := by
  unfold Normalised at h
  rw [not_not] at h
  rcases List.eq_nil_or_concat x.bytes with h' | ⟨l, b, h'⟩
  · rw [h'] at h; simp at h
  · rw [h'] at h; simp at h; exact ⟨l, by rw [h', h, List.concat_eq_append]⟩

/-- A superfluous zero byte makes `bits_used` panic, whatever the length. -/
theorem bitsUsed_panics {x : BigUint} (h : ¬ Normalised x) : ∃ e, bitsUsed x = .error e := by
  obtain ⟨l, hl⟩ := not_norm_concat h
  have hlen : x.bytes.length = l.length + 1 := by rw [hl]; simp
  unfold bitsUsed
  have e1 : x.bytes.isEmpty = false := by rw [hl]; simp
  have e3 : idx x.bytes (x.bytes.length - 1) = .ok 0#8 := by
    unfold idx
    rw [hlen, Nat.add_sub_cancel, hl]
    simp
  simp only [e1, e3, bind, Except.bind, Bool.false_eq_true, if_false]
  cases mulU32 ((x.bytes.length - 1) % 2 ^ 32) 8 with
  | error e => exact ⟨e, rfl⟩
  | ok v => exact ⟨_, rfl⟩

theorem isSet_not_norm {x : BigUint} (h : ¬ Normalised x) (hl : x.bytes.length < 2 ^ 29) (i : Nat) :
    isSet x i = .error .ilogZero := by
  unfold isSet
  simp only [bitsUsed_not_norm h hl, bind, Except.bind]

theorem cmp_not_norm_left {x : BigUint} (h : ¬ Normalised x) (hl : x.bytes.length < 2 ^ 29) (y : BigUint) :
    cmp x y = .error .ilogZero := by
  unfold cmp
  simp only [bitsUsed_not_norm h hl, bind, Except.bind]

theorem cmp_not_norm_right {x : BigUint} (h : ¬ Normalised x) (hl : x.bytes.length < 2 ^ 29) (n : Nat)
    (hn : (big n).bytes.length < 2 ^ 29) : cmp (big n) x = .error .ilogZero := by
  unfold cmp
  simp only [bitsUsed_not_norm h hl, bitsUsed_norm (norm_big n) hn, bind, Except.bind]

theorem sub_not_norm_left {cap : Nat → Nat} {x : BigUint} (h : ¬ Normalised x) (hl : x.bytes.length < 2 ^ 29) (y : BigUint) :
    subAssign cap x y = .error .ilogZero := by
  unfold subAssign
  simp only [bitsUsed_not_norm h hl, bind, Except.bind]

theorem rem_not_norm_right {cap : Nat → Nat} {x : BigUint} (h : ¬ Normalised x) (hl : x.bytes.length < 2 ^ 29) (y : BigUint) :
    rem cap y x = .error .ilogZero := by
  unfold rem
  simp only [bitsUsed_not_norm h hl, bind, Except.bind]

theorem rem_not_norm_left {cap : Nat → Nat} {x : BigUint} (h : ¬ Normalised x) (hl : x.bytes.length < 2 ^ 29) (n : Nat)
    (hn : (big n).bytes.length < 2 ^ 29) : rem cap x (big n) = .error .ilogZero := by
  unfold rem
  simp only [bitsUsed_not_norm h hl, bitsUsed_norm (norm_big n) hn, bind, Except.bind]

theorem rem_not_norm_left' {cap : Nat → Nat} {x y z : BigUint} (h : ¬ Normalised x) : rem cap x y ≠ .ok z := by
  obtain ⟨e, he⟩ := bitsUsed_panics h
  unfold rem
  simp only [he, bind, Except.bind]
  cases bitsUsed y <;> simp

/-- Zero, with `k` superfluous bytes. -/
def zeros (k : Nat) : BigUint := ⟨List.replicate k 0#8⟩

theorem trim_zeros (k : Nat) : trim (List.replicate k 0#8) = [] := by
  unfold trim
  rw [List.reverse_replicate, List.reverse_eq_nil_iff, List.dropWhile_eq_nil_iff]
  intro b hb
  rw [List.eq_of_mem_replicate hb]
  rfl

theorem not_norm_zeros (k : Nat) : ¬ Normalised (zeros (k + 1)) := by
  unfold Normalised zeros
  rw [List.replicate_succ']
  simp

theorem val_zeros (k : Nat) : val (zeros k) = 0 := by unfold val zeros; exact leVal_zeros k

theorem shlLoop_zeros (r k : Nat) : shlLoop r (List.replicate k 0#8) 0#8 = List.replicate k 0#8 := by
  induction k with
  | zero => rfl
  | succ k ih =>
    rw [List.replicate_succ]
    simp only [shlLoop]
    have e1 : (0#8 : U8) ||| (0#8 <<< r) = 0#8 := by simp
    have e2 : (0#8 : U8) >>> (8 - r) = 0#8 := by simp
    rw [e1, e2, ih]

theorem shrLoop_zeros (r k : Nat) : shrLoop r (List.replicate k 0#8) = (List.replicate k 0#8, 0#8) := by
  induction k with
  | zero => rfl
  | succ k ih =>
    rw [List.replicate_succ]
    simp only [shrLoop, ih]
    have e1 : (0#8 : U8) ||| (0#8 >>> r) = 0#8 := by simp
    have e2 : (0#8 : U8) <<< (8 - r) = 0#8 := by simp
    rw [e1, e2]

/-- Shifting such a zero left: whole bytes are appended, any other shift trims first. -/
theorem shl_zeros (j k : Nat) : shl (zeros j) k = zeros (k / 8 + if k % 8 = 0 then j else 0) := by
  have hsub : k - k / 8 * 8 = k % 8 := by omega
  unfold shl zeros
  simp only [hsub]
  have h1 : List.replicate j 0#8 ++ [0#8] = List.replicate (j + 1) (0#8 : U8) := by rw [List.replicate_succ']
  rw [h1, shlLoop_zeros, trim_zeros]
  by_cases h : k % 8 = 0
  · rw [if_neg (by omega : ¬ k % 8 > 0), if_pos h]
    by_cases h2 : k / 8 > 0
    · rw [if_pos h2, ← List.replicate_add]
    · have : k / 8 = 0 := by omega
      rw [if_neg h2, this, Nat.zero_add]
  · rw [if_pos (by omega : k % 8 > 0), if_neg h, Nat.add_zero]
    by_cases h2 : k / 8 > 0
    · rw [if_pos h2, List.append_nil]
    · have : k / 8 = 0 := by omega
      rw [if_neg h2, this]; rfl

/-- Shifting such a zero right: whole bytes are removed, any other shift trims. -/
theorem shr_zeros (j k : Nat) : shr (zeros j) k =
    if k / 8 ≤ j then .ok (zeros (if k % 8 = 0 then j - k / 8 else 0)) else .error .index := by
  unfold shr zeros
  simp only [List.length_replicate, List.drop_replicate]
  by_cases hk : k ≥ 8
  · have hsub : k - k / 8 * 8 = k % 8 := by omega
    simp only [if_pos hk, hsub]
    by_cases hj : k / 8 ≤ j
    · simp only [if_pos hj, bind, Except.bind, shrLoop_zeros, trim_zeros]
      by_cases h : k % 8 = 0
      · rw [if_neg (by omega), if_pos h]; rfl
      · rw [if_pos (by omega), if_neg h]; rfl
    · simp only [if_neg hj, bind, Except.bind]
  · have e : k / 8 = 0 := by omega
    have e' : k % 8 = k := by omega
    simp only [if_neg hk, bind, Except.bind, shrLoop_zeros, trim_zeros, e, e', Nat.zero_le, if_true]
    by_cases h : k = 0
    · rw [if_neg (by omega), if_pos h]; rfl
    · rw [if_pos (by omega), if_neg h]; rfl

theorem big_zero_zeros : big 0 = zeros 0 := big_zero

theorem norm_val_zero {x : BigUint} (h : Normalised x) (h0 : val x = 0) : x = zeros 0 := by
  rw [eq_big h, h0]; exact big_zero

end Verif.Model.Big
