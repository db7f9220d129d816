import Verif.Spec.Big
import Verif.Proof.Words
import Verif.Proof.ShaPad
import Mathlib.Data.Nat.Digits.Lemmas
import Mathlib.Tactic.Ring
import Mathlib.Tactic.Linarith

/-! # `BigUint` arithmetic -/

namespace Verif.Model.Big
open Verif Verif.Spec.Big

/-! ## Digits -/

theorem leVal_append (a b : List U8) : leVal (a ++ b) = leVal a + 256 ^ a.length * leVal b := by
  induction a with
  | nil => simp [leVal]
  | cons x a ih => simp only [List.cons_append, leVal, ih, List.length_cons, Nat.pow_succ]; ring

theorem leVal_zeros (n : Nat) : leVal (List.replicate n 0#8) = 0 := by
  induction n with
  | zero => rfl
  | succ n ih => simp [List.replicate_succ, leVal, ih]

theorem leVal_append_zeros (l : List U8) (n : Nat) : leVal (l ++ List.replicate n 0#8) = leVal l := by
  rw [leVal_append, leVal_zeros]; simp

theorem trim_concat (l : List U8) (b : U8) : trim (l ++ [b]) = if b = 0#8 then trim l else l ++ [b] := by
  unfold trim
  by_cases h : b = 0#8 <;> simp [h, List.dropWhile_cons]

theorem trim_spec (l : List U8) : ∃ n, l = trim l ++ List.replicate n 0#8 ∧ (trim l).getLast? ≠ some 0#8 := by
  induction l using List.reverseRecOn with
  | nil => exact ⟨0, rfl, by simp [trim]⟩
  | append_singleton l b ih =>
    obtain ⟨n, h1, h2⟩ := ih
    rw [trim_concat]
    by_cases hb : b = 0#8
    · rw [if_pos hb]
      refine ⟨n + 1, ?_, h2⟩
      rw [List.replicate_succ', ← List.append_assoc, ← h1, hb]
    · rw [if_neg hb]
      exact ⟨0, by simp, by simp [hb]⟩

theorem leVal_trim (l : List U8) : leVal (trim l) = leVal l := by
  obtain ⟨n, h, -⟩ := trim_spec l
  conv => rhs; rw [h]
  rw [leVal_append_zeros]

theorem trim_norm (l : List U8) : Normalised ⟨trim l⟩ := (trim_spec l).choose_spec.2

theorem length_trim_le (l : List U8) : (trim l).length ≤ l.length := by
  obtain ⟨n, h, -⟩ := trim_spec l
  have := congrArg List.length h
  simp at this
  omega

theorem norm_cases {x : BigUint} (h : Normalised x) : x.bytes = [] ∨ ∃ l b, x.bytes = l ++ [b] ∧ b ≠ 0#8 := by
  rcases List.eq_nil_or_concat x.bytes with h' | ⟨l, b, h'⟩
  · exact Or.inl h'
  · rw [List.concat_eq_append] at h'
    refine Or.inr ⟨l, b, h', ?_⟩
    intro hb
    apply h
    rw [h', hb]
    simp

theorem norm_lower {x : BigUint} (h : Normalised x) (hx : x.bytes ≠ []) : 256 ^ (x.bytes.length - 1) ≤ val x := by
  rcases norm_cases h with h' | ⟨l, b, h', hb⟩
  · exact absurd h' hx
  · unfold val
    rw [h', leVal_append]
    have : 1 ≤ b.toNat := by
      rcases Nat.eq_zero_or_pos b.toNat with h0 | h0
      · exact absurd (BitVec.eq_of_toNat_eq (by simpa using h0)) hb
      · exact h0
    simp only [List.length_append, List.length_singleton, Nat.add_sub_cancel, leVal]
    calc 256 ^ l.length = 256 ^ l.length * 1 := by ring
      _ ≤ 256 ^ l.length * (b.toNat + 256 * 0) := Nat.mul_le_mul_left _ (by omega)
      _ ≤ _ := Nat.le_add_left _ _

theorem val_lt (x : BigUint) : val x < 256 ^ x.bytes.length := leVal_lt _

theorem norm_inj {x y : BigUint} (hx : Normalised x) (hy : Normalised y) (h : val x = val y) : x = y := by
  have hlen : ∀ {x y : BigUint}, Normalised x → Normalised y → val x = val y → x.bytes.length ≤ y.bytes.length := by
    intro x y hx hy h
    by_cases hx0 : x.bytes = []
    · simp [hx0]
    · by_contra hc
      have h1 := norm_lower hx hx0
      have h2 := val_lt y
      have h3 : 256 ^ y.bytes.length ≤ 256 ^ (x.bytes.length - 1) := Nat.pow_le_pow_right (by omega) (by omega)
      omega
  have e := leVal_inj (Nat.le_antisymm (hlen hx hy h) (hlen hy hx h.symm)) h
  cases x; cases y; simp_all

theorem leVal_map_ofNat (l : List Nat) (h : ∀ d ∈ l, d < 256) : leVal (l.map (BitVec.ofNat 8)) = Nat.ofDigits 256 l := by
  induction l with
  | nil => rfl
  | cons d l ih =>
    simp only [List.map_cons, leVal, Nat.ofDigits_cons, BitVec.toNat_ofNat]
    rw [ih (fun d hd => h d (List.mem_cons_of_mem _ hd)), Nat.mod_eq_of_lt (h d List.mem_cons_self)]

theorem val_big (n : Nat) : val (big n) = n := by
  unfold val big
  rw [leVal_map_ofNat _ (fun d hd => Nat.digits_lt_base (by omega) hd), Nat.ofDigits_digits]

theorem norm_big (n : Nat) : Normalised (big n) := by
  unfold Normalised big
  simp only [List.getLast?_map]
  intro h
  obtain ⟨d, hd, hd0⟩ := Option.map_eq_some_iff.1 h
  have hne : Nat.digits 256 n ≠ [] := by intro h0; rw [h0] at hd; simp at hd
  rw [List.getLast?_eq_some_getLast hne, Option.some_inj] at hd
  have hn : n ≠ 0 := by intro h0; subst h0; simp at hne
  have h1 := Nat.getLast_digit_ne_zero 256 hn
  have h2 : d < 256 := Nat.digits_lt_base (m := n) (by omega) (hd ▸ List.getLast_mem hne)
  rw [hd] at h1
  have := congrArg BitVec.toNat hd0
  simp only [BitVec.toNat_ofNat] at this
  rw [Nat.mod_eq_of_lt h2] at this
  exact h1 (by simpa using this)

theorem eq_big {x : BigUint} (h : Normalised x) : x = big (val x) := norm_inj h (norm_big _) (val_big _).symm

theorem big_inj {a b : Nat} (h : big a = big b) : a = b := by rw [← val_big a, h, val_big]

/-- A normalised list is recognised by its value. -/
theorem eq_big_of {l : List U8} {n : Nat} (h : Normalised ⟨l⟩) (e : leVal l = n) : (⟨l⟩ : BigUint) = big n := by
  rw [eq_big h]; exact congrArg big e

theorem big_zero : big 0 = ⟨[]⟩ := rfl

theorem trim_big (l : List U8) : (⟨trim l⟩ : BigUint) = big (leVal l) := eq_big_of (trim_norm l) (leVal_trim l)

/-! ## Lengths -/

theorem pow256 (n : Nat) : 256 ^ n = 2 ^ (8 * n) := by rw [Nat.pow_mul]

theorem size_val_le (x : BigUint) : (val x).size ≤ 8 * x.bytes.length := by
  rw [Nat.size_le, ← pow256]; exact val_lt x

theorem length_lt_size {x : BigUint} (h : Normalised x) (hx : x.bytes ≠ []) : 8 * (x.bytes.length - 1) < (val x).size := by
  rw [Nat.lt_size, ← pow256]; exact norm_lower h hx

theorem length_le {x : BigUint} (h : Normalised x) {k : Nat} (hk : val x < 256 ^ k) : x.bytes.length ≤ k := by
  by_cases hx : x.bytes = []
  · simp [hx]
  · have h1 := length_lt_size h hx
    have h2 : (val x).size ≤ 8 * k := by rw [Nat.size_le, ← pow256]; exact hk
    omega

theorem length_big (n : Nat) : (big n).bytes.length = (n.size + 7) / 8 := by
  have h1 := size_val_le (big n)
  rw [val_big] at h1
  by_cases hx : (big n).bytes = []
  · rw [hx] at h1 ⊢; simp at h1; simp [h1]
  · have h2 := length_lt_size (norm_big n) hx
    rw [val_big] at h2
    have : 0 < (big n).bytes.length := List.length_pos_iff.2 hx
    omega

/-! ## Bits -/

theorem bitsUsed_norm {x : BigUint} (h : Normalised x) (hl : x.bytes.length < 2 ^ 29) : bitsUsed x = .ok (val x).size := by
  rcases norm_cases h with h' | ⟨l, b, h', hb⟩
  · unfold bitsUsed val
    simp only [h', List.isEmpty_nil, if_true, leVal, Nat.size_zero]
    rfl
  · have hb0 : b.toNat ≠ 0 := fun h0 => hb (BitVec.eq_of_toNat_eq (by simpa using h0))
    have hlen : x.bytes.length = l.length + 1 := by rw [h']; simp
    have hlog : b.toNat.log2 < 8 := (Nat.log2_lt hb0).2 (by have := b.isLt; omega)
    have hsize : (val x).size = 8 * l.length + (b.toNat.log2 + 1) := by
      have hv : val x = leVal l + 256 ^ l.length * b.toNat := by unfold val; rw [h', leVal_append]; simp [leVal]
      have h1 : 2 ^ b.toNat.log2 ≤ b.toNat := Nat.log2_self_le hb0
      have h2 : b.toNat < 2 ^ (b.toNat.log2 + 1) := Nat.lt_log2_self
      have h3 := leVal_lt l
      apply Nat.le_antisymm
      · rw [Nat.size_le, Nat.pow_add, ← pow256, hv]
        calc leVal l + 256 ^ l.length * b.toNat < 256 ^ l.length + 256 ^ l.length * b.toNat := by omega
          _ = 256 ^ l.length * (b.toNat + 1) := by ring
          _ ≤ _ := Nat.mul_le_mul_left _ h2
      · rw [← Nat.add_assoc, Nat.add_one_le_iff, Nat.lt_size, Nat.pow_add, ← pow256, hv]
        calc 256 ^ l.length * 2 ^ b.toNat.log2 ≤ 256 ^ l.length * b.toNat := Nat.mul_le_mul_left _ h1
          _ ≤ _ := Nat.le_add_left _ _
    unfold bitsUsed
    have e1 : x.bytes.isEmpty = false := by rw [h']; simp
    have e2 : mulU32 ((x.bytes.length - 1) % 2 ^ 32) 8 = .ok (8 * l.length) := by
      unfold mulU32
      rw [hlen, Nat.add_sub_cancel, Nat.mod_eq_of_lt (by omega), if_pos (by omega), Nat.mul_comm]
    have e3 : idx x.bytes (x.bytes.length - 1) = .ok b := by
      unfold idx
      rw [hlen, Nat.add_sub_cancel, h']
      simp
    have e4 : ilog2 b = .ok b.toNat.log2 := by unfold ilog2; rw [if_neg hb]
    have e5 : addU32 (8 * l.length) (b.toNat.log2 + 1) = .ok (8 * l.length + (b.toNat.log2 + 1)) := by
      unfold addU32; rw [if_pos (by omega)]
    simp only [e1, e2, e3, e4, bind, Except.bind, hsize, Bool.false_eq_true, if_false]
    exact e5

/-- A superfluous zero byte makes `bits_used` panic. -/
theorem bitsUsed_not_norm {x : BigUint} (h : ¬ Normalised x) (hl : x.bytes.length < 2 ^ 29) : bitsUsed x = .error .ilogZero := by
  unfold Normalised at h
  rw [not_not] at h
  obtain ⟨l, hl'⟩ : ∃ l, x.bytes = l ++ [0#8] := by
    rcases List.eq_nil_or_concat x.bytes with h' | ⟨l, b, h'⟩
    · rw [h'] at h; simp at h
    · rw [h'] at h; simp at h; exact ⟨l, by rw [h', h, List.concat_eq_append]⟩
  have hlen : x.bytes.length = l.length + 1 := by rw [hl']; simp
  unfold bitsUsed
  have e1 : x.bytes.isEmpty = false := by rw [hl']; simp
  have e2 : mulU32 ((x.bytes.length - 1) % 2 ^ 32) 8 = .ok (8 * l.length) := by
    unfold mulU32
    rw [hlen, Nat.add_sub_cancel, Nat.mod_eq_of_lt (by omega), if_pos (by omega), Nat.mul_comm]
  have e3 : idx x.bytes (x.bytes.length - 1) = .ok 0#8 := by
    unfold idx
    rw [hlen, Nat.add_sub_cancel, hl']
    simp
  simp only [e1, e2, e3, bind, Except.bind, Bool.false_eq_true, if_false]
  rfl

theorem testBit_leVal (l : List U8) (i : Nat) : (leVal l).testBit i = (l.getD (i / 8) 0#8).getLsbD (i % 8) := by
  induction l generalizing i with
  | nil => simp [leVal]
  | cons b l ih =>
    have hb : b.toNat < 2 ^ 8 := b.isLt
    have e : leVal (b :: l) = 2 ^ 8 * leVal l + b.toNat := by simp only [leVal]; omega
    rw [e, Nat.testBit_two_pow_mul_add _ hb]
    by_cases h : i < 8
    · rw [if_pos h, Nat.div_eq_of_lt h, Nat.mod_eq_of_lt h]
      rfl
    · rw [if_neg h, ih]
      have h1 : i / 8 = (i - 8) / 8 + 1 := by omega
      have h2 : i % 8 = (i - 8) % 8 := by omega
      rw [h1, h2, List.getD_cons_succ]

theorem and_one_ne (b : U8) (k : Nat) : (((b >>> k) &&& 1#8) != 0#8) = b.getLsbD k := by
  have h : ((b >>> k) &&& 1#8) = if b.getLsbD k then 1#8 else 0#8 := by
    apply BitVec.eq_of_getLsbD_eq
    intro i hi
    rw [BitVec.getLsbD_and, BitVec.getLsbD_ushiftRight]
    by_cases h0 : i = 0
    · subst h0; by_cases hb : b.getLsbD k <;> simp [hb]
    · have : (1#8).getLsbD i = false := by rw [BitVec.getLsbD_one]; simp [h0]
      by_cases hb : b.getLsbD k <;> simp [hb, this]
  rw [h]
  by_cases hb : b.getLsbD k <;> simp [hb]

theorem isSet_norm {x : BigUint} (h : Normalised x) (hl : x.bytes.length < 2 ^ 29) (i : Nat) :
    isSet x i = .ok ((val x).testBit i) := by
  unfold isSet
  simp only [bitsUsed_norm h hl, bind, Except.bind]
  by_cases h1 : i ≥ (val x).size
  · rw [if_pos h1, Nat.testBit_lt_two_pow (Nat.size_le.1 h1)]
    rfl
  · rw [if_neg h1]
    have h2 := size_val_le x
    have hlt : i / 8 < x.bytes.length := by omega
    have e1 : x.bytes.isEmpty = false := by
      rw [← Bool.not_eq_true, List.isEmpty_iff]; intro h0; rw [h0] at hlt; simp at hlt
    have e2 : idx x.bytes (i / 8) = .ok (x.bytes.getD (i / 8) 0#8) := by
      unfold idx; rw [List.getElem?_eq_getElem hlt]; simp [hlt]
    rw [if_neg (by simp [e1]), if_neg (by omega), e2]
    simp only [and_one_ne]
    unfold val
    rw [testBit_leVal]
    rfl

/-! ## `update` -/

theorem update_ok (x : BigUint) (i : Nat) (b : Bool) (hi : i / 8 < x.bytes.length) :
    ∃ y, update x i b = .ok y ∧ y.bytes.length = x.bytes.length ∧
      ∀ j, (val y).testBit j = if j = i then b else (val x).testBit j := by
  have e1 : x.bytes.isEmpty = false := by
    rw [← Bool.not_eq_true, List.isEmpty_iff]; intro h0; rw [h0] at hi; simp at hi
  have e2 : idx x.bytes (i / 8) = .ok (x.bytes[i / 8]) := by unfold idx; rw [List.getElem?_eq_getElem hi]
  unfold update
  rw [if_neg (by simp [e1])]
  simp only [bind, Except.bind, pure, Except.pure]
  rw [if_neg (by omega)]
  simp only [e2]
  refine ⟨_, rfl, by simp, fun j => ?_⟩
  unfold val
  simp only [testBit_leVal, List.getD_eq_getElem?_getD, List.getElem?_set]
  have hi8 : i % 8 < 8 := Nat.mod_lt _ (by omega)
  have hj8 : j % 8 < 8 := Nat.mod_lt _ (by omega)
  by_cases hij : i / 8 = j / 8
  · rw [if_pos hij, if_pos hi]
    have hxj : x.bytes[j / 8]?.getD 0#8 = x.bytes[i / 8] := by rw [← hij, List.getElem?_eq_getElem hi]; rfl
    simp only [Option.getD_some, hxj]
    by_cases hm : j % 8 = i % 8
    · have : j = i := by omega
      subst this
      cases b <;> simp [BitVec.getLsbD_shiftLeft, hj8]
    · have : j ≠ i := by intro h; exact hm (by rw [h])
      rw [if_neg this]
      have hone : (1#8 <<< (i % 8)).getLsbD (j % 8) = false := by
        rw [BitVec.getLsbD_shiftLeft, BitVec.getLsbD_one]
        by_cases h3 : j % 8 < i % 8
        · simp [h3]
        · simp only [decide_eq_true_eq, hj8, decide_true, Bool.true_and, h3, decide_false, Bool.not_false]
          simp; omega
      cases b
      · rw [if_neg (by simp), BitVec.getLsbD_and, BitVec.getLsbD_not, hone]; simp [hj8]
      · rw [if_pos rfl, BitVec.getLsbD_or, hone]; simp
  · have : j ≠ i := by intro h; exact hij (by rw [h])
    rw [if_neg hij, if_neg this]

theorem update_panics (x : BigUint) (i : Nat) (b : Bool) (hi : x.bytes.length ≤ i / 8) :
    update x i b = .error .explicit := by
  unfold update
  by_cases h : x.bytes.isEmpty
  · rw [if_pos h]; rfl
  · rw [if_neg h, if_pos hi]; rfl

/-! ## Addition -/

theorem and_ff (n : Nat) : n &&& 0xff = n % 256 := Nat.and_two_pow_sub_one_eq_mod n 8

theorem shr8 (n : Nat) : n >>> 8 = n / 256 := Nat.shiftRight_eq_div_pow n 8

theorem addByteLoop_ok (l : List U8) (c : Nat) (hc : c < 256) : ∃ o, addByteLoop l c = .ok o ∧
    o.length = l.length ∧ leVal o = (leVal l + c) % 256 ^ l.length := by
  induction l generalizing c with
  | nil => exact ⟨[], rfl, rfl, by simp [leVal, Nat.mod_one]⟩
  | cons b l ih =>
    unfold addByteLoop
    by_cases h0 : c = 0
    · rw [if_pos h0]
      refine ⟨_, rfl, rfl, ?_⟩
      rw [h0, Nat.add_zero, Nat.mod_eq_of_lt (leVal_lt _)]
    · have hb := b.isLt
      rw [if_neg h0]
      have e1 : addU16 c b.toNat = .ok (c + b.toNat) := by unfold addU16; rw [if_pos (by omega)]
      obtain ⟨o, ho, hl, hv⟩ := ih (((c + b.toNat) >>> 8) &&& 0xff) (by rw [and_ff]; exact Nat.mod_lt _ (by omega))
      simp only [bind, Except.bind, e1, ho]
      refine ⟨_, rfl, by simp [hl], ?_⟩
      simp only [leVal, hv, List.length_cons, Nat.pow_succ, BitVec.toNat_ofNat, and_ff, shr8]
      have hd : (c + b.toNat) / 256 % 256 = (c + b.toNat) / 256 := Nat.mod_eq_of_lt (by omega)
      rw [hd, Nat.mod_eq_of_lt (a := (c + b.toNat) % 256) (by omega)]
      rw [show b.toNat + 256 * leVal l + c = (c + b.toNat) % 256 + 256 * (leVal l + (c + b.toNat) / 256) by omega,
        Nat.mul_comm (256 ^ _) 256, Nat.mod_mul, Nat.add_mul_mod_self_left, Nat.add_mul_div_left _ _ (by omega),
        Nat.mod_mod, Nat.div_eq_of_lt (a := (c + b.toNat) % 256) (by omega), Nat.zero_add]

theorem addByte_eq (x : BigUint) (b : U8) : addByte x b = .ok (big (val x + b.toNat)) := by
  obtain ⟨o, ho, hl, hv⟩ := addByteLoop_ok (x.bytes ++ [0#8]) b.toNat b.isLt
  unfold addByte
  simp only [ho, bind, Except.bind, pure, Except.pure, trim_big, hv]
  have h1 := val_lt x
  have h2 := b.isLt
  have h3 : leVal (x.bytes ++ [0#8]) = val x := leVal_append_zeros x.bytes 1
  rw [h3, Nat.mod_eq_of_lt]
  simp only [List.length_append, List.length_singleton, Nat.pow_succ]
  have : 1 ≤ 256 ^ x.bytes.length := Nat.one_le_pow _ _ (by omega)
  omega

theorem addLoop_ok (l r : List U8) (c : Nat) (hc : c < 2) (hr : r.length ≤ l.length) :
    ∃ o, addLoop l r c = .ok o ∧ leVal o = leVal l + leVal r + c := by
  induction l generalizing r c with
  | nil =>
    cases r with
    | nil => exact ⟨_, rfl, by simp [leVal]; omega⟩
    | cons y r => simp at hr
  | cons b l ih =>
    have hb := b.isLt
    have e1 : addU16 c b.toNat = .ok (c + b.toNat) := by unfold addU16; rw [if_pos (by omega)]
    cases r with
    | nil =>
      obtain ⟨o, ho, hv⟩ := ih [] (((c + b.toNat) >>> 8) &&& 0xff) (by rw [and_ff, shr8]; omega) (by simp)
      unfold addLoop
      simp only [bind, Except.bind, e1, List.tail_nil, ho]
      refine ⟨_, rfl, ?_⟩
      simp only [leVal, hv, BitVec.toNat_ofNat, and_ff, shr8]
      omega
    | cons y r =>
      have hy := y.isLt
      have e2 : addU16 (c + b.toNat) y.toNat = .ok (c + b.toNat + y.toNat) := by unfold addU16; rw [if_pos (by omega)]
      obtain ⟨o, ho, hv⟩ := ih r (((c + b.toNat + y.toNat) >>> 8) &&& 0xff) (by rw [and_ff, shr8]; omega)
        (by simpa using hr)
      unfold addLoop
      simp only [bind, Except.bind, e1, e2, List.tail_cons, ho]
      refine ⟨_, rfl, ?_⟩
      simp only [leVal, hv, BitVec.toNat_ofNat, and_ff, shr8]
      omega

theorem add_eq (x y : BigUint) : add x y = .ok (big (val x + val y)) := by
  obtain ⟨o, ho, hv⟩ := addLoop_ok (x.bytes ++ List.replicate (y.bytes.length - x.bytes.length) 0#8) y.bytes 0
    (by omega) (by simp; omega)
  unfold add
  simp only [ho, bind, Except.bind, pure, Except.pure, trim_big, hv, leVal_append_zeros]
  rfl

/-! ## Comparison -/

theorem cmpLoop_eq {x y : BigUint} {a b : Nat} (hx : ∀ i, isSet x i = .ok (a.testBit i))
    (hy : ∀ i, isSet y i = .ok (b.testBit i)) (n : Nat) :
    cmpLoop x y n = .ok (compare (a % 2 ^ n) (b % 2 ^ n)) := by
  induction n with
  | zero => simp [cmpLoop, Nat.mod_one]
  | succ n ih =>
    unfold cmpLoop
    simp only [hx, hy, bind, Except.bind, ih]
    have ha : a % 2 ^ (n + 1) = a % 2 ^ n + 2 ^ n * (a.testBit n).toNat := by rw [Nat.mod_pow_succ, Nat.toNat_testBit]
    have hb : b % 2 ^ (n + 1) = b % 2 ^ n + 2 ^ n * (b.testBit n).toNat := by rw [Nat.mod_pow_succ, Nat.toNat_testBit]
    have la : a % 2 ^ n < 2 ^ n := Nat.mod_lt _ (Nat.two_pow_pos _)
    have lb : b % 2 ^ n < 2 ^ n := Nat.mod_lt _ (Nat.two_pow_pos _)
    rw [ha, hb]
    cases h1 : a.testBit n <;> cases h2 : b.testBit n
    · simp
    · simp only [Bool.false_and, Bool.false_eq_true, if_false, Bool.not_false, Bool.true_and, if_true, Bool.toNat_false, Bool.toNat_true]
      rw [Nat.compare_eq_lt.2 (by omega)]; rfl
    · simp only [Bool.true_and, Bool.not_false, if_true, Bool.toNat_false, Bool.toNat_true]
      rw [Nat.compare_eq_gt.2 (by omega)]; rfl
    · simp only [Bool.not_true, Bool.and_false, Bool.false_and, Bool.false_eq_true, if_false, Bool.toNat_true, Nat.mul_one]
      congr 1
      rcases Nat.lt_trichotomy (a % 2 ^ n) (b % 2 ^ n) with h | h | h
      · rw [Nat.compare_eq_lt.2 h, Nat.compare_eq_lt.2 (by omega)]
      · rw [Nat.compare_eq_eq.2 h, Nat.compare_eq_eq.2 (by omega)]
      · rw [Nat.compare_eq_gt.2 h, Nat.compare_eq_gt.2 (by omega)]

theorem cmp_norm {x y : BigUint} (hx : Normalised x) (hy : Normalised y) (lx : x.bytes.length < 2 ^ 29)
    (ly : y.bytes.length < 2 ^ 29) : cmp x y = .ok (compare (val x) (val y)) := by
  unfold cmp
  simp only [bitsUsed_norm hx lx, bitsUsed_norm hy ly, bind, Except.bind]
  rcases Nat.lt_trichotomy (val x).size (val y).size with h | h | h
  · have : val x < val y := Nat.lt_of_lt_of_le (Nat.size_le.1 (Nat.le_refl _)) (Nat.lt_size.1 h)
    rw [Nat.compare_eq_lt.2 h, Nat.compare_eq_lt.2 this]
    rfl
  · rw [Nat.compare_eq_eq.2 h]
    simp only [cmpLoop_eq (isSet_norm hx lx) (isSet_norm hy ly)]
    rw [Nat.mod_eq_of_lt (Nat.lt_size_self _), h, Nat.mod_eq_of_lt (Nat.lt_size_self _)]
  · have : val y < val x := Nat.lt_of_lt_of_le (Nat.size_le.1 (Nat.le_refl _)) (Nat.lt_size.1 h)
    rw [Nat.compare_eq_gt.2 h, Nat.compare_eq_gt.2 this]
    rfl

/-! ## Subtraction -/

theorem clearLoop_ok (x : BigUint) (i n : Nat) (h : i + n ≤ 8 * x.bytes.length) : ∃ y, clearLoop x i n = .ok y ∧
    ∀ j, (val y).testBit j = if i ≤ j ∧ j < i + n then false else (val x).testBit j := by
  induction n generalizing x i with
  | zero => exact ⟨x, rfl, fun j => by rw [if_neg (by omega)]⟩
  | succ n ih =>
    obtain ⟨y, hy, hl, hb⟩ := update_ok x i false (by omega)
    obtain ⟨z, hz, hzb⟩ := ih y (i + 1) (by omega)
    refine ⟨z, by unfold clearLoop; simp only [hy, bind, Except.bind, hz], fun j => ?_⟩
    rw [hzb, hb]
    by_cases h1 : i + 1 ≤ j ∧ j < i + 1 + n
    · rw [if_pos h1, if_pos (by omega)]
    · rw [if_neg h1]
      by_cases h2 : j = i
      · rw [if_pos h2, if_pos (by omega)]
      · rw [if_neg h2, if_neg (by omega)]

theorem leVal_compl (l : List U8) : leVal (l.map (~~~ ·)) + leVal l + 1 = 256 ^ l.length := by
  induction l with
  | nil => rfl
  | cons b l ih =>
    simp only [List.map_cons, leVal, List.length_cons, Nat.pow_succ, BitVec.toNat_not]
    have := b.isLt
    omega

theorem leVal_inv (l : List U8) (k : Nat) :
    leVal (l.map (~~~ ·) ++ List.replicate k (~~~0#8)) + leVal l + 1 = 256 ^ (l.length + k) := by
  have h := leVal_compl (l ++ List.replicate k 0#8)
  rw [leVal_append_zeros] at h
  simpa using h

theorem subAssign_eq {cap : Nat → Nat} {a b : Nat} {x : BigUint} (hx : x = big a) (hc : CapOk cap)
    (hl : x.bytes.length ≤ 2 ^ 28) :
    subAssign cap x (big b) =
      if (big b).bytes.length ≤ cap (x.bytes.length + 1) then
        .ok (big ((256 ^ cap (x.bytes.length + 1) + a - b) % 2 ^ a.size))
      else .error .overflow := by
  have hn : Normalised x := hx ▸ norm_big a
  have hv : val x = a := by rw [hx, val_big]
  obtain ⟨hc1, hc2⟩ := hc (x.bytes.length + 1) (by omega)
  unfold subAssign
  rw [bitsUsed_norm hn (by omega), hv]
  by_cases hb : (big b).bytes.length ≤ cap (x.bytes.length + 1)
  · have e1 : subU (cap (x.bytes.length + 1)) (big b).bytes.length =
        .ok (cap (x.bytes.length + 1) - (big b).bytes.length) := by unfold subU; rw [if_pos hb]
    have hinv := leVal_inv (big b).bytes (cap (x.bytes.length + 1) - (big b).bytes.length)
    rw [Nat.add_sub_cancel' hb] at hinv
    have hbv : leVal (big b).bytes = b := val_big b
    rw [hbv] at hinv
    have e2 : val ⟨trim ((big b).bytes.map (~~~ ·) ++
        List.replicate (cap (x.bytes.length + 1) - (big b).bytes.length) (~~~0#8))⟩ =
        256 ^ cap (x.bytes.length + 1) - b - 1 := by unfold val; rw [leVal_trim]; omega
    have hax : a < 256 ^ x.bytes.length := hv ▸ val_lt x
    have hpow : 256 ^ x.bytes.length ≤ 256 ^ cap (x.bytes.length + 1) := Nat.pow_le_pow_right (by omega) (by omega)
    have hsum : a + 1 + (256 ^ cap (x.bytes.length + 1) - b - 1) = 256 ^ cap (x.bytes.length + 1) + a - b := by omega
    rw [if_pos hb]
    simp only [e1, bind, Except.bind, addByte_eq, add_eq, e2, hv, val_big]
    rw [show a + (1#8).toNat = a + 1 from rfl, hsum]
    have hV : (val (big (256 ^ cap (x.bytes.length + 1) + a - b))) = 256 ^ cap (x.bytes.length + 1) + a - b := val_big _
    have hlen : (big (256 ^ cap (x.bytes.length + 1) + a - b)).bytes.length ≤ cap (x.bytes.length + 1) + 1 := by
      apply length_le (norm_big _)
      rw [hV, Nat.pow_succ]
      omega
    have e3 := bitsUsed_norm (norm_big (256 ^ cap (x.bytes.length + 1) + a - b)) (by omega)
    have hsz := size_val_le (big (256 ^ cap (x.bytes.length + 1) + a - b))
    rw [hV] at e3 hsz
    rw [e3]
    simp only
    generalize hW : 256 ^ cap (x.bytes.length + 1) + a - b = W at *
    have hn' : a.size ≤ 8 * (big W).bytes.length ∨ W.size ≤ a.size := by omega
    rcases Nat.le_total W.size a.size with h | h
    · rw [Nat.sub_eq_zero_of_le h]
      simp only [clearLoop, pure, Except.pure, trim_big]
      rw [show leVal (big W).bytes = W from val_big W, Nat.mod_eq_of_lt (Nat.size_le.1 h)]
    · obtain ⟨z, hz, hzb⟩ := clearLoop_ok (big W) a.size (W.size - a.size) (by omega)
      rw [hz]
      simp only [pure, Except.pure, trim_big]
      congr 2
      show val z = _
      apply Nat.eq_of_testBit_eq
      intro j
      rw [hzb, Nat.testBit_mod_two_pow, val_big]
      by_cases h1 : j < a.size
      · simp only [h1, decide_true, Bool.true_and]; rw [if_neg (by omega)]
      · simp only [h1, decide_false, Bool.false_and]
        by_cases h2 : j < W.size
        · rw [if_pos (by omega)]
        · rw [if_neg (by omega)]; exact Nat.testBit_lt_two_pow (Nat.size_le.1 (by omega))
  · rw [if_neg hb]
    have e1 : subU (cap (x.bytes.length + 1)) (big b).bytes.length = .error .overflow := by unfold subU; rw [if_neg hb]
    simp only [e1, bind, Except.bind]

theorem subAssign_ge {cap : Nat → Nat} {a b : Nat} (hc : CapOk cap) (hl : (big a).bytes.length ≤ 2 ^ 28) (h : b ≤ a) :
    subAssign cap (big a) (big b) = .ok (big (a - b)) := by
  have hcap := (hc ((big a).bytes.length + 1) (by omega)).1
  have hlen : (big b).bytes.length ≤ (big a).bytes.length := by
    rw [length_big, length_big]; have := Nat.size_le_size h; omega
  rw [subAssign_eq rfl hc hl, if_pos (by omega)]
  congr 2
  have hs : a.size ≤ 8 * (big a).bytes.length := by have := size_val_le (big a); rwa [val_big] at this
  obtain ⟨k, hk⟩ : ∃ k, 256 ^ cap ((big a).bytes.length + 1) = 2 ^ a.size * k := by
    rw [pow256]; exact Nat.pow_dvd_pow 2 (by omega)
  rw [Nat.add_sub_assoc h, hk, Nat.mul_add_mod, Nat.mod_eq_of_lt]
  have := Nat.lt_size_self a
  omega

/-! ## Shifts -/

theorem shl_byte (b carry : U8) (k : Nat) (hk : k < 8) (hc : carry.toNat < 2 ^ k) :
    (carry ||| (b <<< k)).toNat + 256 * (b >>> (8 - k)).toNat = carry.toNat + 2 ^ k * b.toNat ∧
      (b >>> (8 - k)).toNat < 2 ^ k := by
  have hb := b.isLt
  rw [BitVec.toNat_or, BitVec.toNat_shiftLeft, BitVec.toNat_ushiftRight, Nat.shiftRight_eq_div_pow]
  have h256 : 2 ^ (8 - k) * 2 ^ k = 256 := by rw [← Nat.pow_add, Nat.sub_add_cancel (by omega)]
  have e1 : b.toNat <<< k % 2 ^ 8 = (b.toNat % 2 ^ (8 - k)) <<< k := by
    rw [Nat.shiftLeft_eq, Nat.shiftLeft_eq, show 2 ^ 8 = 2 ^ (8 - k) * 2 ^ k from h256.symm, Nat.mul_mod_mul_right]
  rw [e1, Nat.or_comm, ← Nat.shiftLeft_add_eq_or_of_lt hc, Nat.shiftLeft_eq]
  constructor
  · have := Nat.div_add_mod b.toNat (2 ^ (8 - k))
    generalize b.toNat / 2 ^ (8 - k) = q at *
    generalize b.toNat % 2 ^ (8 - k) = r at *
    rw [← this, ← h256]
    ring
  · rw [Nat.div_lt_iff_lt_mul (Nat.two_pow_pos _), Nat.mul_comm, h256]; exact hb

theorem shlLoop_ok (k : Nat) (hk : k < 8) (l : List U8) (c : U8) (hc : c.toNat < 2 ^ k) :
    (shlLoop k l c).length = l.length ∧ ∃ q, q < 2 ^ k ∧
      leVal (shlLoop k l c) + 256 ^ l.length * q = c.toNat + 2 ^ k * leVal l := by
  induction l generalizing c with
  | nil => exact ⟨rfl, c.toNat, hc, by simp [shlLoop, leVal]⟩
  | cons b l ih =>
    obtain ⟨h1, h2⟩ := shl_byte b c k hk hc
    obtain ⟨hl, q, hq, hv⟩ := ih (b >>> (8 - k)) h2
    refine ⟨by simp [shlLoop, hl], q, hq, ?_⟩
    simp only [shlLoop, leVal, List.length_cons, Nat.pow_succ]
    have e : 256 ^ l.length * 256 * q = 256 * (256 ^ l.length * q) := by ring
    have e' : 2 ^ k * (b.toNat + 256 * leVal l) = 2 ^ k * b.toNat + 256 * (2 ^ k * leVal l) := by ring
    rw [e, e']
    omega

theorem shl_small (x : BigUint) (k : Nat) (hk : k < 8) :
    leVal (trim (shlLoop k (x.bytes ++ [0#8]) 0#8)) = val x * 2 ^ k := by
  obtain ⟨hl, q, hq, hv⟩ := shlLoop_ok k hk (x.bytes ++ [0#8]) 0#8 (by simp)
  have h0 : leVal (x.bytes ++ [0#8]) = val x := leVal_append_zeros x.bytes 1
  rw [h0] at hv
  simp only [BitVec.toNat_ofNat, Nat.zero_mod, Nat.zero_add] at hv
  have h1 : 2 ^ k * val x < 256 ^ (x.bytes ++ [0#8]).length := by
    simp only [List.length_append, List.length_singleton, Nat.pow_succ]
    have h2 := val_lt x
    have h3 : 2 ^ k ≤ 2 ^ 8 := Nat.pow_le_pow_right (by omega) (by omega)
    calc 2 ^ k * val x ≤ 256 * val x := Nat.mul_le_mul_right _ h3
      _ < 256 * 256 ^ x.bytes.length := Nat.mul_lt_mul_of_pos_left h2 (by omega)
      _ = _ := Nat.mul_comm _ _
  have hq0 : q = 0 := by
    by_contra hne
    have : 256 ^ (x.bytes ++ [0#8]).length * 1 ≤ 256 ^ (x.bytes ++ [0#8]).length * q :=
      Nat.mul_le_mul_left _ (by omega)
    omega
  rw [hq0, Nat.mul_zero, Nat.add_zero] at hv
  rw [leVal_trim, hv, Nat.mul_comm]

theorem val_shl (x : BigUint) (k : Nat) : val (shl x k) = val x * 2 ^ k := by
  have hsub : k - k / 8 * 8 = k % 8 := by omega
  have hin : leVal (if k % 8 > 0 then trim (shlLoop (k % 8) (x.bytes ++ [0#8]) 0#8) else x.bytes) = val x * 2 ^ (k % 8) := by
    by_cases h : k % 8 > 0
    · rw [if_pos h, shl_small x _ (Nat.mod_lt _ (by omega))]
    · rw [if_neg h]
      have : k % 8 = 0 := by omega
      rw [this]; simp [val]
  unfold shl val
  simp only [hsub]
  have hk : 2 ^ k = 2 ^ (k % 8) * 256 ^ (k / 8) := by
    rw [pow256, ← Nat.pow_add, Nat.mod_add_div]
  by_cases h : k / 8 > 0
  · rw [if_pos h, leVal_append, leVal_zeros, hin, List.length_replicate, hk]
    unfold val
    ring
  · rw [if_neg h, hin, hk]
    have : k / 8 = 0 := by omega
    rw [this]; simp [val]

theorem shl_norm (x : BigUint) (k : Nat) (h : Normalised x) (hx : val x ≠ 0 ∨ k < 8) : Normalised (shl x k) := by
  have hsub : k - k / 8 * 8 = k % 8 := by omega
  have hin : Normalised ⟨if k % 8 > 0 then trim (shlLoop (k % 8) (x.bytes ++ [0#8]) 0#8) else x.bytes⟩ := by
    by_cases h : k % 8 > 0
    · rw [if_pos h]; exact trim_norm _
    · rw [if_neg h]; assumption
  unfold shl
  simp only [hsub]
  by_cases hk : k / 8 > 0
  · rw [if_pos hk]
    have hv : leVal (if k % 8 > 0 then trim (shlLoop (k % 8) (x.bytes ++ [0#8]) 0#8) else x.bytes) = val x * 2 ^ (k % 8) := by
      by_cases h : k % 8 > 0
      · rw [if_pos h, shl_small x _ (Nat.mod_lt _ (by omega))]
      · rw [if_neg h]
        have : k % 8 = 0 := by omega
        rw [this]; simp [val]
    have hne : (if k % 8 > 0 then trim (shlLoop (k % 8) (x.bytes ++ [0#8]) 0#8) else x.bytes) ≠ [] := by
      intro h0
      rw [h0] at hv
      have h1 : val x ≠ 0 := by rcases hx with h | h; exact h; omega
      have := Nat.mul_ne_zero h1 (Nat.two_pow_pos (k % 8)).ne'
      exact this (by rw [← hv]; rfl)
    unfold Normalised at hin ⊢
    simp only at hin ⊢
    rw [List.getLast?_append_of_ne_nil _ hne]
    exact hin
  · rw [if_neg hk]; exact hin

theorem shl_big {n : Nat} (hn : n ≠ 0) (k : Nat) : shl (big n) k = big (n * 2 ^ k) := by
  rw [eq_big (shl_norm (big n) k (norm_big n) (Or.inl (by rwa [val_big]))), val_shl, val_big]

theorem shl_big_small (n k : Nat) (hk : k < 8) : shl (big n) k = big (n * 2 ^ k) := by
  rw [eq_big (shl_norm (big n) k (norm_big n) (Or.inr hk)), val_shl, val_big]

theorem trim_zero : trim [0#8] = [] := rfl

theorem shl_zero (k : Nat) : shl (big 0) k = ⟨List.replicate (k / 8) 0#8⟩ := by
  unfold shl
  simp only [big_zero, List.nil_append]
  have h : trim (shlLoop (k - k / 8 * 8) [0#8] 0#8) = [] := by
    simp only [shlLoop]
    have : (0#8 : U8) ||| (0#8 <<< (k - k / 8 * 8)) = 0#8 := by simp
    rw [this]; rfl
  rw [h]
  by_cases h2 : k / 8 > 0
  · rw [if_pos h2]; simp
  · rw [if_neg h2]
    have : k / 8 = 0 := by omega
    simp [this]

theorem shr_byte (b c : U8) (k V : Nat) (hk : 0 < k) (hk8 : k < 8) (hc : c.toNat = V % 2 ^ k * 2 ^ (8 - k)) :
    (c ||| (b >>> k)).toNat + 256 * (V / 2 ^ k) = (b.toNat + 256 * V) / 2 ^ k ∧
      (b <<< (8 - k)).toNat = (b.toNat + 256 * V) % 2 ^ k * 2 ^ (8 - k) := by
  have hb := b.isLt
  have h256 : 2 ^ k * 2 ^ (8 - k) = 256 := by rw [← Nat.pow_add, Nat.add_sub_cancel' (by omega)]
  have hlt : b.toNat / 2 ^ k < 2 ^ (8 - k) := by
    rw [Nat.div_lt_iff_lt_mul (Nat.two_pow_pos _), Nat.mul_comm, h256]; exact hb
  constructor
  · rw [BitVec.toNat_or, BitVec.toNat_ushiftRight, Nat.shiftRight_eq_div_pow, hc, ← Nat.shiftLeft_eq,
      ← Nat.shiftLeft_add_eq_or_of_lt hlt, Nat.shiftLeft_eq]
    have e : b.toNat + 256 * V = b.toNat + 2 ^ k * (2 ^ (8 - k) * V) := by rw [← Nat.mul_assoc, h256]
    rw [e, Nat.add_mul_div_left _ _ (Nat.two_pow_pos _)]
    have := Nat.div_add_mod V (2 ^ k)
    generalize V / 2 ^ k = q at *
    generalize V % 2 ^ k = r at *
    rw [← this, ← h256]
    ring
  · rw [BitVec.toNat_shiftLeft, Nat.shiftLeft_eq, show 2 ^ 8 = 2 ^ k * 2 ^ (8 - k) from h256.symm, Nat.mul_mod_mul_right]
    have e : b.toNat + 256 * V = b.toNat + 2 ^ k * (2 ^ (8 - k) * V) := by rw [← Nat.mul_assoc, h256]
    rw [e, Nat.add_mul_mod_self_left]

theorem shrLoop_ok (k : Nat) (hk : 0 < k) (hk8 : k < 8) (l : List U8) :
    leVal (shrLoop k l).1 = leVal l / 2 ^ k ∧ (shrLoop k l).2.toNat = leVal l % 2 ^ k * 2 ^ (8 - k) := by
  induction l with
  | nil => simp [shrLoop, leVal]
  | cons b l ih =>
    obtain ⟨h1, h2⟩ := ih
    obtain ⟨g1, g2⟩ := shr_byte b (shrLoop k l).2 k (leVal l) hk hk8 h2
    simp only [shrLoop, leVal]
    rw [h1]
    exact ⟨g1, g2⟩

theorem leVal_drop (l : List U8) (n : Nat) (hn : n ≤ l.length) : leVal (l.drop n) = leVal l / 256 ^ n := by
  have h := leVal_append (l.take n) (l.drop n)
  rw [List.take_append_drop] at h
  have hlen : (l.take n).length = n := by simp; omega
  have hlt := leVal_lt (l.take n)
  rw [hlen] at h hlt
  rw [h, Nat.add_mul_div_left _ _ (Nat.pow_pos (by omega)), Nat.div_eq_of_lt hlt, Nat.zero_add]

theorem shr_big (n k : Nat) (hk : k / 8 ≤ (big n).bytes.length) : shr (big n) k = .ok (big (n / 2 ^ k)) := by
  have hd : leVal ((big n).bytes.drop (k / 8)) = n / 256 ^ (k / 8) := by
    rw [leVal_drop _ _ hk]; exact congrArg (· / _) (val_big n)
  have hnd : Normalised ⟨(big n).bytes.drop (k / 8)⟩ := by
    have := norm_big n
    unfold Normalised at this ⊢
    simp only at this ⊢
    rw [List.getLast?_drop]
    split
    · simp
    · exact this
  have hpow : n / 256 ^ (k / 8) / 2 ^ (k % 8) = n / 2 ^ k := by
    rw [Nat.div_div_eq_div_mul, pow256, ← Nat.pow_add]
    congr 2
    omega
  unfold shr
  simp only
  by_cases h8 : k ≥ 8
  · rw [if_pos h8, if_pos hk, if_pos h8]
    simp only [bind, Except.bind, show k - k / 8 * 8 = k % 8 by omega]
    by_cases hr : k % 8 > 0
    · rw [if_pos hr]
      simp only [pure, Except.pure, trim_big]
      rw [(shrLoop_ok (k % 8) hr (Nat.mod_lt _ (by omega)) _).1, hd, hpow]
    · rw [if_neg hr]
      simp only [pure, Except.pure]
      rw [eq_big_of hnd (hd.trans _)]
      have : k % 8 = 0 := by omega
      rw [← hpow, this]; simp
  · rw [if_neg h8, if_neg h8]
    have h0 : k / 8 = 0 := by omega
    rw [h0] at hd hpow hnd
    simp only [List.drop_zero, Nat.pow_zero, Nat.div_one] at hd hpow hnd
    simp only [bind, Except.bind]
    by_cases hr : k > 0
    · rw [if_pos hr]
      simp only [pure, Except.pure, trim_big]
      rw [(shrLoop_ok k hr (by omega) _).1, hd]
    · rw [if_neg hr]
      have : k = 0 := by omega
      rw [this]; simp [pure, Except.pure]

theorem shr_panics (n k : Nat) (hk : (big n).bytes.length < k / 8) : shr (big n) k = .error .index := by
  unfold shr
  simp only
  rw [if_pos (show k ≥ 8 by omega), if_neg (by omega)]
  rfl

/-! ## Remainder -/

theorem length_big_mono {a b : Nat} (h : a ≤ b) : (big a).bytes.length ≤ (big b).bytes.length := by
  rw [length_big, length_big]; have := Nat.size_le_size h; omega

theorem remLoop_ok {cap : Nat → Nat} (hc : CapOk cap) (y n a : Nat) (hy : 0 < y) (ha : a < 2 * (y * 2 ^ n))
    (hla : (big a).bytes.length ≤ 2 ^ 28) (hlm : (big (y * 2 ^ n)).bytes.length < 2 ^ 29) :
    remLoop cap (big a) (big (y * 2 ^ n)) (n + 1) = .ok (big (a % y)) := by
  induction n generalizing a with
  | zero =>
    simp only [Nat.pow_zero, Nat.mul_one] at *
    have e2 : ∃ z, shr (big y) 1 = .ok z := ⟨_, shr_big y 1 (by omega)⟩
    obtain ⟨z, hz⟩ := e2
    unfold remLoop
    simp only [cmp_norm (norm_big y) (norm_big a) (by omega) (by omega), val_big, bind, Except.bind, hz]
    by_cases h : y ≤ a
    · have : compare y a ≠ .gt := by rw [Ne, Nat.compare_eq_gt]; omega
      rw [if_pos this, subAssign_ge hc hla h]
      simp only [remLoop]
      congr 2
      rw [Nat.mod_eq_sub_mod h, Nat.mod_eq_of_lt (by omega)]
    · have : ¬ compare y a ≠ .gt := by rw [Ne, not_not, Nat.compare_eq_gt]; omega
      rw [if_neg this]
      simp only [remLoop]
      rw [Nat.mod_eq_of_lt (by omega)]
  | succ n ih =>
    have hm : y * 2 ^ (n + 1) = 2 * (y * 2 ^ n) := by rw [Nat.pow_succ]; ring
    have e2 : shr (big (y * 2 ^ (n + 1))) 1 = .ok (big (y * 2 ^ n)) := by
      rw [shr_big _ 1 (by omega), hm]; congr 2; omega
    have hlm' : (big (y * 2 ^ n)).bytes.length < 2 ^ 29 := by
      have := length_big_mono (show y * 2 ^ n ≤ y * 2 ^ (n + 1) by omega)
      omega
    unfold remLoop
    simp only [cmp_norm (norm_big (y * 2 ^ (n + 1))) (norm_big a) (by omega) (by omega), val_big, bind, Except.bind, e2]
    by_cases h : y * 2 ^ (n + 1) ≤ a
    · have : compare (y * 2 ^ (n + 1)) a ≠ .gt := by rw [Ne, Nat.compare_eq_gt]; omega
      rw [if_pos this, subAssign_ge hc hla h]
      simp only
      rw [ih (a - y * 2 ^ (n + 1)) (by omega) (by have := length_big_mono (Nat.sub_le a (y * 2 ^ (n + 1))); omega) hlm']
      congr 2
      conv => rhs; rw [show a = (a - y * 2 ^ (n + 1)) + y * 2 ^ (n + 1) by omega]
      rw [Nat.add_mul_mod_self_left]
    · have : ¬ compare (y * 2 ^ (n + 1)) a ≠ .gt := by rw [Ne, not_not, Nat.compare_eq_gt]; omega
      rw [if_neg this]
      exact ih a (by omega) hla hlm'

theorem rem_eq {cap : Nat → Nat} (hc : CapOk cap) (a y : Nat) (hy : 0 < y)
    (ha : (big a).bytes.length ≤ 2 ^ 28) (hly : (big y).bytes.length < 2 ^ 29) :
    rem cap (big a) (big y) = .ok (big (a % y)) := by
  unfold rem
  simp only [bitsUsed_norm (norm_big a) (show (big a).bytes.length < 2 ^ 29 by omega),
    bitsUsed_norm (norm_big y) hly, val_big, bind, Except.bind]
  by_cases h : y.size > a.size
  · rw [if_pos h]
    have : a < y := Nat.lt_of_lt_of_le (Nat.lt_size_self a) (Nat.lt_size.1 h)
    rw [Nat.mod_eq_of_lt this]
    rfl
  · rw [if_neg h]
    have e : subU a.size y.size = .ok (a.size - y.size) := by unfold subU; rw [if_pos (by omega)]
    rw [e]
    simp only
    rw [shl_big hy.ne']
    have hys : 0 < y.size := Nat.size_pos.2 hy
    have h1 : 2 ^ (y.size - 1) ≤ y := Nat.lt_size.1 (by omega)
    have h2 : a < 2 ^ a.size := Nat.lt_size_self a
    have h3 : (2 : Nat) ^ a.size = 2 * (2 ^ (y.size - 1) * 2 ^ (a.size - y.size)) := by
      rw [← Nat.pow_add, ← Nat.pow_succ']
      congr 1
      omega
    have h4 : 2 ^ (y.size - 1) * 2 ^ (a.size - y.size) ≤ y * 2 ^ (a.size - y.size) := Nat.mul_le_mul_right _ h1
    have h5 : (y * 2 ^ (a.size - y.size)).size ≤ a.size := by
      rw [Nat.size_le]
      calc y * 2 ^ (a.size - y.size) < 2 ^ y.size * 2 ^ (a.size - y.size) :=
            Nat.mul_lt_mul_of_pos_right (Nat.lt_size_self y) (Nat.two_pow_pos _)
        _ = 2 ^ a.size := by rw [← Nat.pow_add, Nat.add_sub_cancel' (by omega)]
    have h6 : (big (y * 2 ^ (a.size - y.size))).bytes.length ≤ (big a).bytes.length := by
      rw [length_big, length_big]; omega
    exact remLoop_ok hc y (a.size - y.size) a hy (by omega) ha (by omega)

theorem remLoop_zero {cap : Nat → Nat} (hc : CapOk cap) (n a : Nat) (ha : (big a).bytes.length ≤ 2 ^ 28) :
    remLoop cap (big a) (big 0) n = .ok (big a) := by
  induction n with
  | zero => rfl
  | succ n ih =>
    have e2 : shr (big 0) 1 = .ok (big 0) := shr_big 0 1 (by omega)
    unfold remLoop
    simp only [cmp_norm (norm_big 0) (norm_big a) (by rw [big_zero]; simp) (show (big a).bytes.length < 2 ^ 29 by omega),
      val_big, bind, Except.bind, e2]
    have : compare 0 a ≠ .gt := by rw [Ne, Nat.compare_eq_gt]; omega
    rw [if_pos this, subAssign_ge hc ha (Nat.zero_le a)]
    exact ih

/-- The remainder by zero: a number of at most 7 bits is returned, every other one panics. -/
theorem rem_zero {cap : Nat → Nat} (hc : CapOk cap) (a : Nat) (ha : (big a).bytes.length ≤ 2 ^ 28) :
    rem cap (big a) (big 0) = if a < 128 then .ok (big a) else .error .ilogZero := by
  unfold rem
  simp only [bitsUsed_norm (norm_big a) (show (big a).bytes.length < 2 ^ 29 by omega),
    bitsUsed_norm (norm_big 0) (by rw [big_zero]; simp), val_big, bind, Except.bind, Nat.size_zero]
  have e : subU a.size 0 = .ok a.size := by unfold subU; rw [if_pos (by omega)]; rfl
  rw [if_neg (by omega), e]
  simp only
  by_cases h : a < 128
  · have hs : a.size ≤ 7 := Nat.size_le.2 h
    rw [if_pos h, shl_big_small 0 _ (by omega), Nat.zero_mul]
    exact remLoop_zero hc _ a ha
  · have hs : 7 < a.size := Nat.lt_size.2 (by omega)
    rw [if_neg h, shl_zero]
    have hlen : a.size / 8 ≤ (big a).bytes.length := by rw [length_big]; omega
    have hb : bitsUsed ⟨List.replicate (a.size / 8) 0#8⟩ = .error .ilogZero := by
      apply bitsUsed_not_norm
      · unfold Normalised
        obtain ⟨k, hk⟩ : ∃ k, a.size / 8 = k + 1 := ⟨a.size / 8 - 1, by omega⟩
        rw [hk, List.replicate_succ']
        simp
      · simp only [List.length_replicate]; omega
    unfold remLoop cmp
    simp only [hb, bind, Except.bind]

/-! ## Conversions -/

theorem dropWhile_head {l : List U8} {k : Nat} (h : l.findIdx? (· != 0#8) = some k) :
    ∃ n b t, l = List.replicate n 0#8 ++ b :: t ∧ n = k ∧ b ≠ 0#8 := by
  induction l generalizing k with
  | nil => simp at h
  | cons a l ih =>
    rw [List.findIdx?_cons] at h
    by_cases ha : a = 0#8
    · rw [if_neg (by simp [ha])] at h
      obtain ⟨k', hk', rfl⟩ := Option.map_eq_some_iff.1 h
      obtain ⟨n, b, t, e, rfl, hb⟩ := ih hk'
      exact ⟨n + 1, b, t, by rw [e, ha, List.replicate_succ]; rfl, rfl, hb⟩
    · rw [if_pos (by simp [ha])] at h
      cases h
      exact ⟨0, a, l, rfl, rfl, ha⟩

theorem findIdx_none {l : List U8} (h : l.findIdx? (· != 0#8) = none) : l = List.replicate l.length 0#8 := by
  rw [List.findIdx?_eq_none_iff] at h
  exact List.eq_replicate_iff.2 ⟨rfl, fun b hb => by simpa using h b hb⟩

theorem fromBeBytes_eq (l : List U8) : fromBeBytes l = .ok (big (beVal l)) := by
  unfold fromBeBytes
  cases h : l.findIdx? (· != 0#8) with
  | none =>
    have e := findIdx_none h
    unfold beVal
    rw [e, List.reverse_replicate, leVal_zeros]
    rfl
  | some k =>
    obtain ⟨n, b, t, e, rfl, hb⟩ := dropWhile_head h
    subst e
    simp only [List.drop_left' (List.length_replicate (n := n) (a := 0#8))]
    congr 1
    have hn : Normalised ⟨(b :: t).reverse⟩ := by
      unfold Normalised
      simp [hb]
    refine eq_big_of hn ?_
    unfold beVal
    rw [List.reverse_append, List.reverse_replicate, leVal_append_zeros]

theorem fromLeBytes_eq (l : List U8) : fromLeBytes l = big (leVal l) := trim_big l

theorem fromU128_eq (v : U128) : fromU128 v = .ok (big v.toNat) := by
  unfold fromU128
  by_cases h : v = 0#128
  · rw [if_pos h, h]; rfl
  · rw [if_neg h]
    have hv : leVal (natToLE 16 v.toNat) = v.toNat := by
      rw [leVal_natToLE, Nat.mod_eq_of_lt]; have := v.isLt; omega
    have hlen := length_natToLE 16 v.toNat
    generalize natToLE 16 v.toNat = l at *
    simp only
    cases hf : l.reverse.findIdx? (· != 0#8) with
    | none =>
      exfalso
      have e := findIdx_none hf
      have e2 : l = List.replicate l.length 0#8 := by
        have := congrArg List.reverse e
        simpa using this
      rw [e2, leVal_zeros] at hv
      exact h (BitVec.eq_of_toNat_eq (by simpa using hv.symm))
    | some k =>
      obtain ⟨n, b, t, e, rfl, hb⟩ := dropWhile_head hf
      have e2 : l = (b :: t).reverse ++ List.replicate n 0#8 := by
        have := congrArg List.reverse e
        simpa using this
      simp only
      have hl2 : (b :: t).reverse.length + n = 16 := by
        have := congrArg List.length e2
        rw [List.length_append, List.length_replicate, hlen] at this
        omega
      have hpos : 0 < (b :: t).reverse.length := by simp
      have ht : l.take (16 - 1 - n + 1) = (b :: t).reverse := by
        rw [e2]
        exact List.take_left' (by omega)
      rw [ht]
      congr 1
      refine eq_big_of (by unfold Normalised; simp [hb]) ?_
      rw [← hv, e2, leVal_append_zeros]

theorem asU128_eq (x : BigUint) : asU128 x =
    .ok (if x.bytes.length ≤ 16 then .ok (BitVec.ofNat 128 (val x)) else .error x.bytes.length) := by
  unfold asU128
  by_cases h : x.bytes.length ≤ 16
  · rw [if_neg (by omega), if_pos h]
    obtain ⟨v, hv, hvl⟩ : ∃ v, copyInto (Vector.replicate 16 0#8) 0 x.bytes = .ok v ∧
        v.toList = x.bytes ++ List.replicate (16 - x.bytes.length) 0#8 := by
      unfold copyInto
      rw [if_pos (by omega)]
      refine ⟨_, rfl, ?_⟩
      apply List.ext_getElem
      · simp; omega
      · intro i h1 h2
        have hi : i < 16 := by simpa using h1
        simp only [Vector.getElem_toList, Vector.getElem_ofFn, Nat.zero_le, true_and, Nat.zero_add, Nat.sub_zero]
        by_cases h3 : i < x.bytes.length
        · rw [if_pos h3, List.getElem_append_left h3]; simp [h3]
        · rw [if_neg h3, List.getElem_append_right (by omega)]; simp
    rw [hv]
    simp only [bind, Except.bind, pure, Except.pure, hvl, leVal_append_zeros]
    rfl
  · rw [if_pos (by omega), if_neg h]
    rfl

theorem toBeBytes_val (x : BigUint) : beVal (toBeBytes x) = val x := by
  unfold beVal toBeBytes val; rw [List.reverse_reverse]

theorem length_le_iff {n k : Nat} : (big n).bytes.length ≤ k ↔ n < 256 ^ k := by
  constructor
  · intro h
    have := val_lt (big n)
    rw [val_big] at this
    exact Nat.lt_of_lt_of_le this (Nat.pow_le_pow_right (by omega) h)
  · intro h
    exact length_le (norm_big n) (by rwa [val_big])

/-! ## Normalised results -/

theorem subAssign_norm {cap : Nat → Nat} {x y z : BigUint} (h : subAssign cap x y = .ok z) : Normalised z := by
  unfold subAssign at h
  simp only [bind, Except.bind, pure, Except.pure] at h
  repeat' split at h
  all_goals first
    | (cases h; exact trim_norm _)
    | cases h

theorem remLoop_norm {cap : Nat → Nat} {x m z : BigUint} {n : Nat} (hx : Normalised x)
    (h : remLoop cap x m n = .ok z) : Normalised z := by
  induction n generalizing x m with
  | zero => cases h; exact hx
  | succ n ih =>
    unfold remLoop at h
    cases h1 : cmp m x with
    | error e => simp only [h1, bind, Except.bind] at h; cases h
    | ok o =>
      simp only [h1, bind, Except.bind] at h
      by_cases ho : o ≠ .gt
      · rw [if_pos ho] at h
        cases h2 : subAssign cap x m with
        | error e => simp only [h2] at h; cases h
        | ok x' =>
          cases h3 : shr m 1 with
          | error e => simp only [h2, h3] at h; cases h
          | ok m' => simp only [h2, h3] at h; exact ih (subAssign_norm h2) h
      · rw [if_neg ho] at h
        cases h3 : shr m 1 with
        | error e => simp only [h3] at h; cases h
        | ok m' => simp only [h3] at h; exact ih hx h

theorem rem_norm {cap : Nat → Nat} {x y z : BigUint} (hx : Normalised x) (h : rem cap x y = .ok z) : Normalised z := by
  unfold rem at h
  simp only [bind, Except.bind, pure, Except.pure] at h
  repeat' split at h
  all_goals first
    | (cases h; assumption)
    | exact remLoop_norm hx h
    | cases h

theorem shr_norm {x z : BigUint} {k : Nat} (hx : Normalised x) (h : shr x k = .ok z) : Normalised z := by
  rw [eq_big hx] at h
  by_cases hk : k / 8 ≤ (big (val x)).bytes.length
  · rw [shr_big _ _ hk] at h; cases h; exact norm_big _
  · rw [shr_panics _ _ (by omega)] at h; cases h

end Verif.Model.Big
