import Verif.Proof.Rc5
import Verif.Model.Rc5Trace
import Verif.Spec.Rc5Leak

/-! # The attack on RC5 with visible rotations -/

namespace Verif.Spec.Rc5Leak
open Verif Verif.Model.Rc5 Verif.Model.Rc5Trace

/-! ## Plans -/

theorem run_askAll {α : Type} (o : Vector U8 8 → Vector U8 8 × List Nat) (qs : List (Vector U8 8))
    (use : List (Vector U8 8 × List Nat) → Plan α) :
    (askAll qs use).run o = (((use (qs.map o)).run o).1, ((use (qs.map o)).run o).2 + qs.length) := by
  induction qs generalizing use with
  | nil => rfl
  | cons q qs ih => simp only [askAll, Plan.run, ih, List.map_cons, List.length_cons]; rfl

/-! ## Digits -/

theorem foldr_bits (x n i : Nat) :
    ((List.range' i n).map fun q => x.testBit q).foldr (fun b n => b.toNat + 2 * n) 0 = x / 2 ^ i % 2 ^ n := by
  induction n generalizing i with
  | zero => simp [Nat.mod_one]
  | succ n ih =>
    rw [List.range'_succ, List.map_cons, List.foldr_cons, ih, Nat.toNat_testBit, Nat.pow_succ, Nat.pow_succ,
      ← Nat.div_div_eq_div_mul, Nat.mul_comm (2 ^ n) 2, Nat.mod_mul]

theorem ofBits_getLsbD (z : U32) : ofBits ((List.range 32).map fun q => z.getLsbD q) = z := by
  have h := foldr_bits z.toNat 32 0
  rw [← List.range_eq_range', Nat.pow_zero, Nat.div_one, Nat.mod_eq_of_lt z.isLt] at h
  unfold ofBits
  simp only [BitVec.getLsbD]
  rw [h, BitVec.ofNat_toNat, BitVec.setWidth_eq]

theorem ofBits_eq (z : U32) (f : Nat → Bool) (h : ∀ q < 32, f q = z.getLsbD q) :
    ofBits ((List.range 32).map f) = z := by
  rw [← ofBits_getLsbD z]
  congr 1
  exact List.map_congr_left fun q hq => h q (List.mem_range.1 hq)

theorem rotR_bit0 (z : U32) (q : Nat) (hq : q < 32) : (z.rotateRight q).getLsbD 0 = z.getLsbD q := by
  rw [BitVec.getLsbD_rotateRight, Nat.mod_eq_of_lt hq, show decide (0 < 32 - q) = true by simp; omega]
  rfl

theorem rotR_bit5 (z : U32) (q : Nat) (hq : q < 32) : (z.rotateRight ((q + 27) % 32)).getLsbD 5 = z.getLsbD q := by
  rw [BitVec.getLsbD_rotateRight, Nat.mod_mod]
  by_cases h : q < 5
  · rw [Nat.mod_eq_of_lt (by omega), show decide (5 < 32 - (q + 27)) = false by simp]
    show (decide (5 < 32) && z.getLsbD (5 - (32 - (q + 27)))) = _
    rw [show 5 - (32 - (q + 27)) = q by omega]
    rfl
  · have e : (q + 27) % 32 = q - 5 := by omega
    rw [e, show decide (5 < 32 - (q - 5)) = true by simp; omega]
    show z.getLsbD (q - 5 + 5) = _
    rw [show q - 5 + 5 = q by omega]

theorem xor32_clear (y : U32) (h : y.getLsbD 5 = false) : y ^^^ 32 = y + 32 := by
  have hand : y &&& 32#32 = 0#32 := by
    apply BitVec.eq_of_getLsbD_eq
    intro i hi
    rw [BitVec.getLsbD_and]
    by_cases h5 : i = 5
    · subst h5; rw [h]; simp
    · have : (32#32).getLsbD i = false := by
        have h32 : ∀ i < 32, i ≠ 5 → (32#32).getLsbD i = false := by decide
        exact h32 i hi h5
      rw [this]; simp
  show y ^^^ 32#32 = y + 32#32
  rw [BitVec.add_eq_or_of_and_eq_zero _ _ hand]
  apply BitVec.eq_of_getLsbD_eq
  intro i hi
  have := congrArg (fun v => v.getLsbD i) hand
  simp only [BitVec.getLsbD_and, BitVec.getLsbD_zero] at this
  rw [BitVec.getLsbD_xor, BitVec.getLsbD_or]
  revert this
  cases y.getLsbD i <;> cases (32#32).getLsbD i <;> simp

theorem xor32_set (y : U32) (h : y.getLsbD 5 = true) : y ^^^ 32 = y - 32 := by
  have hc : (y ^^^ 32).getLsbD 5 = false := by
    rw [BitVec.getLsbD_xor, h]; decide
  have := xor32_clear _ hc
  rw [BitVec.xor_assoc, BitVec.xor_self, BitVec.xor_zero] at this
  rw [this, BitVec.add_sub_cancel]
  conv => lhs; rw [← this]

/-! ## Going down -/

/-- The amounts of the rotations from `(X n, X (n + 1))` down to `(X 0, X 1)`, and these. -/
def descend (S : Nat → U32) : Nat → U32 × U32 → (U32 × U32) × List Nat
  | 0, uv => (uv, [])
  | n + 1, uv =>
    let r := descend S n ((uv.2 - S (n + 2)).rotateRight uv.1.toNat ^^^ uv.1, uv.1)
    (r.1, uv.1.toNat % 32 :: r.2)

theorem descend_up (S : Nat → U32) (n : Nat) (uv : U32 × U32) :
    descend S (n + 1) (up S n uv) = ((descend S n uv).1, uv.2.toNat % 32 :: (descend S n uv).2) := by
  obtain ⟨u, v⟩ := uv
  simp only [descend, up, BitVec.add_sub_cancel, rotateLeft_mod32, rotR_rotL]
  rw [BitVec.xor_assoc, BitVec.xor_self, BitVec.xor_zero]

theorem descend_ascend (S : Nat → U32) (n m : Nat) (uv : U32 × U32) :
    (descend S (n + m) (ascend S n m uv)).1 = (descend S n uv).1 ∧
    ∃ pre : List Nat, pre.length = m ∧ (descend S (n + m) (ascend S n m uv)).2 = pre ++ (descend S n uv).2 := by
  induction m with
  | zero => exact ⟨rfl, [], rfl, rfl⟩
  | succ m ih =>
    obtain ⟨h1, pre, h2, h3⟩ := ih
    rw [ascend, ← Nat.add_assoc, descend_up]
    exact ⟨h1, _ :: pre, by simp [h2], by simp only [h3, List.cons_append]; rfl⟩

theorem decRoundsT_eq {s : List U32} {t : Nat} {S : Nat → U32} (h : Same s t S) (n : Nat)
    (hn : 2 * (n + 1) ≤ t) (ab : U32 × U32) : decRoundsT s n ab = .ok (descend S (2 * n) ab) := by
  induction n generalizing ab with
  | zero => rfl
  | succ n ih =>
    obtain ⟨a, b⟩ := ab
    simp only [decRoundsT, h.idx (show 2 * (n + 1) < t by omega), h.idx (show 2 * (n + 1) + 1 < t by omega),
      bind, Except.bind, ih (by omega)]
    rfl

theorem block_eq (ab : U32 × U32) : block ab = joinBlock ab.1 ab.2 :=
  Vector.toList_inj.1 (joinBlock_toList ab.1 ab.2).symm

/-- What is seen for a block made of the words `(X (2 r), X (2 r + 1))`. -/
theorem seen {k : RC5} {S : Nat → U32} (h : Same k.s (2 * (k.r.toNat + 1)) S)
    {o : Vector U8 8 → Vector U8 8 × List Nat} (ho : ∀ b, decryptT k b = .ok (o b)) (uv : U32 × U32) :
    first (o (block uv)).1 = (descend S (2 * k.r.toNat) uv).1.1 - S 0 ∧
    second (o (block uv)).1 = (descend S (2 * k.r.toNat) uv).1.2 - S 1 ∧
    (o (block uv)).2 = (descend S (2 * k.r.toNat) uv).2 := by
  have h1 := ho (block uv)
  rw [block_eq] at h1 ⊢
  simp only [decryptT, leU32_joinBlock uv.1 uv.2, decRoundsT_eq h _ (Nat.le_refl _),
    h.idx (show 0 < 2 * (k.r.toNat + 1) by omega), h.idx (show 1 < 2 * (k.r.toNat + 1) by omega), bind, Except.bind] at h1
  have h2 := Except.ok.inj h1
  rw [← h2]
  refine ⟨?_, ?_, rfl⟩
  · exact (leU32_eq _ _ _ _).symm.trans (leU32_joinBlock _ _).1
  · exact (leU32_eq _ _ _ _).symm.trans (leU32_joinBlock _ _).2

theorem ascend_congr {S T : Nat → U32} (n m : Nat) (h : ∀ j, n + 2 ≤ j → j ≤ n + m + 1 → T j = S j) (uv : U32 × U32) :
    ascend T n m uv = ascend S n m uv := by
  induction m with
  | zero => rfl
  | succ m ih =>
    rw [ascend, ascend, ih fun j h1 h2 => h j h1 (by omega), up, up, h (n + m + 2) (by omega) (by omega)]

/-! ## The words -/

theorem highWord_eq {k : RC5} {S T : Nat → U32} (h : Same k.s (2 * (k.r.toNat + 1)) S)
    {o : Vector U8 8 → Vector U8 8 × List Nat} (ho : ∀ b, decryptT k b = .ok (o b)) (j : Nat) (hj : j + 3 ≤ 2 * k.r.toNat + 1)
    (hT : ∀ i, j + 3 < i → i ≤ 2 * k.r.toNat + 1 → T i = S i) :
    highWord k.r.toNat (j + 3) ((highQuestions k.r.toNat (j + 3) T).map o) = S (j + 3) := by
  have main : ofBits ((List.range 32).map fun q =>
      ((((highQuestions k.r.toNat (j + 3) T).map o).getD q default).2.getD (2 * k.r.toNat + 2 - (j + 3)) 0 + q) % 2 == 1)
      = -S (j + 3) := by
    apply ofBits_eq
    intro q hq
    obtain ⟨m, hm⟩ : ∃ m, 2 * k.r.toNat + 1 - (j + 3) = m := ⟨_, rfl⟩
    have hidx : 2 * k.r.toNat + 2 - (j + 3) = m + 1 := by omega
    have hq2 : ((highQuestions k.r.toNat (j + 3) T).map o).getD q default =
        o (block (ascend S (j + 2) m (BitVec.ofNat 32 q, 0))) := by
      have e : ascend T (j + 2) m (BitVec.ofNat 32 q, 0) = ascend S (j + 2) m (BitVec.ofNat 32 q, 0) :=
        ascend_congr _ _ (fun i h1 h2 => hT i (by omega) (by omega)) _
      simp only [highQuestions, hm, List.map_map]
      rw [← e]
      simp [hq]
    obtain ⟨_, _, h3⟩ := seen h ho (ascend S (j + 2) m (BitVec.ofNat 32 q, 0))
    obtain ⟨_, pre, h4, h5⟩ := descend_ascend S (j + 2) m (BitVec.ofNat 32 q, 0)
    rw [show j + 2 + m = 2 * k.r.toNat by omega] at h5
    rw [hq2, h3, h5, hidx]
    have hqn : (BitVec.ofNat 32 q).toNat = q := by rw [BitVec.toNat_ofNat]; omega
    have hz : (pre ++ (descend S (j + 2) (BitVec.ofNat 32 q, 0)).2).getD (m + 1) 0 =
        ((-S (j + 3)).rotateRight q ^^^ BitVec.ofNat 32 q).toNat % 32 := by
      rw [List.getD_eq_getElem?_getD, List.getElem?_append_right (by omega), h4]
      simp [descend, hqn, Nat.mod_eq_of_lt (show q < 4294967296 by omega)]
    rw [hz, ← rotR_bit0 (-S (j + 3)) q hq]
    rw [Nat.add_mod, Nat.mod_mod_of_dvd _ (by decide : 2 ∣ 32), BitVec.toNat_xor, hqn]
    rw [BitVec.getLsbD, Nat.testBit_zero]
    have hx : ∀ a b : Nat, (a ^^^ b) % 2 = (a % 2 + b % 2) % 2 := by
      intro a b
      have := Nat.testBit_xor a b 0
      simp only [Nat.testBit_zero] at this
      rcases Nat.mod_two_eq_zero_or_one a with ha | ha <;> rcases Nat.mod_two_eq_zero_or_one b with hb | hb <;>
        rcases Nat.mod_two_eq_zero_or_one (a ^^^ b) with hab | hab <;> simp [ha, hb, hab] at this ⊢
    rw [hx]
    generalize ((-S (j + 3)).rotateRight q).toNat = z
    rcases Nat.mod_two_eq_zero_or_one z with ha | ha <;>
      rcases Nat.mod_two_eq_zero_or_one q with hb | hb <;> simp [ha, hb]
  rw [highWord, main, BitVec.neg_neg]

theorem low {k : RC5} {S T : Nat → U32} (h : Same k.s (2 * (k.r.toNat + 1)) S)
    {o : Vector U8 8 → Vector U8 8 × List Nat} (ho : ∀ b, decryptT k b = .ok (o b)) (hr : 1 ≤ k.r.toNat)
    (hT : ∀ i, 2 < i → i ≤ 2 * k.r.toNat + 1 → T i = S i) (x : U32) :
    first (o (block (ascend T 1 (2 * k.r.toNat - 1) (x, 0)))).1 = ((-S 2).rotateRight x.toNat ^^^ x) - S 0 ∧
    second (o (block (ascend T 1 (2 * k.r.toNat - 1) (x, 0)))).1 = x - S 1 := by
  rw [ascend_congr (S := S) (T := T) _ _ (fun i h1 h2 => hT i (by omega) (by omega))]
  obtain ⟨h1, h2, _⟩ := seen h ho (ascend S 1 (2 * k.r.toNat - 1) (x, 0))
  obtain ⟨h4, _⟩ := descend_ascend S 1 (2 * k.r.toNat - 1) (x, 0)
  rw [show 1 + (2 * k.r.toNat - 1) = 2 * k.r.toNat by omega] at h4
  rw [h1, h2, h4]
  simp [descend]

theorem finish_eq {k : RC5} {S T : Nat → U32} (h : Same k.s (2 * (k.r.toNat + 1)) S)
    {o : Vector U8 8 → Vector U8 8 × List Nat} (ho : ∀ b, decryptT k b = .ok (o b)) (hr : 1 ≤ k.r.toNat)
    (hT : ∀ i, 2 < i → i ≤ 2 * k.r.toNat + 1 → T i = S i) (i : Nat) (hi : i < 2 * k.r.toNat + 2) :
    finish T ((lowQuestions k.r.toNat T).map o) i = S i := by
  have hA : ∀ q < 32, ((lowQuestions k.r.toNat T).map o).getD q default =
      o (block (ascend T 1 (2 * k.r.toNat - 1) (BitVec.ofNat 32 q, 0))) := by
    intro q hq
    simp [lowQuestions, List.getElem?_append, hq]
  have hB : ∀ q < 32, ((lowQuestions k.r.toNat T).map o).getD (32 + q) default =
      o (block (ascend T 1 (2 * k.r.toNat - 1) (BitVec.ofNat 32 q ^^^ 32, 0))) := by
    intro q hq
    rw [List.getD_eq_getElem?_getD, lowQuestions, List.map_append, List.getElem?_append_right (by simp)]
    simp [hq]
  have h2 : word2 ((lowQuestions k.r.toNat T).map o) = S 2 := by
    have main : ofBits ((List.range 32).map fun q =>
        first (((lowQuestions k.r.toNat T).map o).getD (32 + (q + 27) % 32) default).1 ==
          first (((lowQuestions k.r.toNat T).map o).getD ((q + 27) % 32) default).1 - 32) = -S 2 := by
      apply ofBits_eq
      intro q hq
      obtain ⟨p, hp⟩ : ∃ p, (q + 27) % 32 = p := ⟨_, rfl⟩
      have hp32 : p < 32 := by omega
      rw [hp, hA p hp32, hB p hp32, (low h ho hr hT _).1, (low h ho hr hT _).1]
      have hpn : (BitVec.ofNat 32 p).toNat = p := by rw [BitVec.toNat_ofNat]; omega
      have e1 : (-S 2).rotateRight (BitVec.ofNat 32 p ^^^ 32).toNat = (-S 2).rotateRight p := by
        have hc : (BitVec.ofNat 32 p).getLsbD 5 = false := by
          rw [BitVec.getLsbD, hpn]
          exact Nat.testBit_lt_two_pow (by omega)
        rw [xor32_clear _ hc, BitVec.toNat_add, hpn]
        show (-S 2).rotateRight ((p + 32) % 2 ^ 32) = _
        rw [Nat.mod_eq_of_lt (by omega), BitVec.rotateRight, BitVec.rotateRight, Nat.add_mod_right]
      have e5 : ((-S 2).rotateRight p ^^^ BitVec.ofNat 32 p).getLsbD 5 = (-S 2).getLsbD q := by
        rw [BitVec.getLsbD_xor, ← hp, rotR_bit5 _ _ hq, hp]
        have hc : (BitVec.ofNat 32 p).getLsbD 5 = false := by
          rw [BitVec.getLsbD, hpn]
          exact Nat.testBit_lt_two_pow (by omega)
        rw [hc, Bool.xor_false]
      rw [e1, hpn, ← BitVec.xor_assoc, ← e5]
      generalize (-S 2).rotateRight p ^^^ BitVec.ofNat 32 p = y
      cases hy : y.getLsbD 5 with
      | true =>
        rw [xor32_set y hy, beq_iff_eq]
        rw [BitVec.sub_eq_add_neg, BitVec.sub_eq_add_neg, BitVec.sub_eq_add_neg, BitVec.sub_eq_add_neg, BitVec.add_assoc,
          BitVec.add_assoc, BitVec.add_comm (-32)]
      | false =>
        rw [xor32_clear y hy, beq_eq_false_iff_ne]
        intro e
        have e' : y + 32 = y - 32 := by
          have := congrArg (· + S 0) e
          simp only [BitVec.sub_add_cancel] at this
          rw [this, BitVec.sub_eq_add_neg, BitVec.sub_eq_add_neg, BitVec.add_assoc, BitVec.add_assoc,
            BitVec.add_comm (-32), ← BitVec.add_assoc (-S 0), BitVec.add_left_neg, BitVec.zero_add,
            BitVec.sub_eq_add_neg]
        have e2 : (32 : U32) = -32 := by
          rw [BitVec.sub_eq_add_neg] at e'
          exact (BitVec.add_right_inj y).1 e'
        exact absurd e2 (by decide)
    rw [word2, main, BitVec.neg_neg]
  unfold finish
  have h0 := low h ho hr hT 0
  have hz : ((lowQuestions k.r.toNat T).map o).getD 0 default = o (block (ascend T 1 (2 * k.r.toNat - 1) (0, 0))) :=
    hA 0 (by decide)
  split
  · next e =>
    subst e
    rw [h2, hz, h0.1]
    have : (-S 2).rotateRight (0 : U32).toNat ^^^ 0 = -S 2 := by
      rw [show (-S 2).rotateRight (0 : U32).toNat = -S 2 by
        apply BitVec.eq_of_getLsbD_eq
        intro i hi
        have hi' : decide (i < 32 - (0 : U32).toNat % 32) = true := by simpa using hi
        rw [BitVec.getLsbD_rotateRight, hi']
        show (-S 2).getLsbD (0 + i) = _
        rw [Nat.zero_add]]
      exact BitVec.xor_zero
    rw [this]
    generalize -S 2 = x
    rw [BitVec.sub_eq_add_neg, BitVec.sub_eq_add_neg, BitVec.neg_add, BitVec.sub_eq_add_neg, BitVec.neg_neg, ← BitVec.add_assoc,
      BitVec.add_right_neg, BitVec.zero_add]
  · split
    · next e => subst e; rw [hz, h0.2]; simp
    · split
      · next e => subst e; exact h2
      · exact hT i (by omega) (by omega)

theorem run_attackFrom {k : RC5} {S : Nat → U32} (h : Same k.s (2 * (k.r.toNat + 1)) S)
    {o : Vector U8 8 → Vector U8 8 × List Nat} (ho : ∀ b, decryptT k b = .ok (o b)) (hr : 1 ≤ k.r.toNat) (n : Nat)
    (hn : n ≤ 2 * k.r.toNat - 1) (T : Nat → U32) (hT : ∀ i, n + 2 < i → i ≤ 2 * k.r.toNat + 1 → T i = S i) :
    (attackFrom k.r.toNat n T).run o = (k.s, 32 * n + 64) := by
  induction n generalizing T with
  | zero =>
    rw [attackFrom, run_askAll]
    simp only [Plan.run]
    have e : (List.range (2 * k.r.toNat + 2)).map (finish T ((lowQuestions k.r.toNat T).map o)) = k.s := by
      apply List.ext_getElem
      · rw [List.length_map, List.length_range, h.1]; omega
      · intro i h1 h2
        rw [List.length_map, List.length_range] at h1
        rw [List.getElem_map, List.getElem_range, finish_eq h ho hr hT i h1, h.2]
    rw [e]
    simp [lowQuestions]
  | succ n ih =>
    rw [attackFrom, run_askAll, highWord_eq h ho n (by omega) fun i h1 h2 => hT i (by omega) h2]
    rw [ih (by omega) _ fun i h1 h2 => by
      unfold Spec.Rc5.put
      split
      · next e => rw [e]
      · exact hT i (by omega) h2]
    simp [highQuestions]
    omega

end Verif.Spec.Rc5Leak
