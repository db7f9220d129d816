import Verif.Model.Space
import Verif.Proof.Rsa
import Verif.Proof.BigExact

/-! # Lemmas about the longest number -/

namespace Verif.Model.Space
open Verif Verif.Model.Big Verif.Model.Rsa Verif.Spec.Big

/-! ## Forgetting the record -/

theorem erase_bind {α β : Type} (x : P α) (f : α → P β) : erase (x >>= f) = (erase x >>= fun a => erase (f a)) := by
  show erase (P.bind x f) = _
  rcases x with e | ⟨a, c⟩
  · rfl
  · simp only [P.bind, erase, bind, Except.bind]
    rcases f a with e | ⟨b, d⟩ <;> rfl

theorem erase_pure {α : Type} (a : α) : erase (pure a : P α) = .ok a := rfl
theorem erase_free {α : Type} (x : R α) : erase (free x) = x := by cases x <;> rfl
theorem erase_held (n : Nat) : erase (held n) = .ok () := rfl
theorem erase_ite {α : Type} (p : Prop) [Decidable p] (x y : P α) : erase (if p then x else y) = if p then erase x else erase y := by
  split <;> rfl

theorem ok_bind {α β : Type} (a : α) (f : α → R β) : ((Except.ok a : R α) >>= f) = f a := rfl

theorem erase_addByteP (x : BigUint) (b : U8) : erase (addByteP x b) = addByte x b := by
  unfold addByteP; simp only [erase_bind, erase_held, erase_free, ok_bind]

theorem erase_addP (x y : BigUint) : erase (addP x y) = add x y := by
  unfold addP; simp only [erase_bind, erase_held, erase_free, ok_bind]

theorem erase_subAssignP (cap : Nat → Nat) (x y : BigUint) : erase (subAssignP cap x y) = subAssign cap x y := by
  unfold subAssignP subAssign
  simp only [erase_bind, erase_held, erase_free, erase_addByteP, erase_addP, ok_bind]

theorem erase_shlP (x : BigUint) (k : Nat) : erase (shlP x k) = .ok (shl x k) := rfl

theorem erase_remLoopP (cap : Nat → Nat) (x m : BigUint) (n : Nat) : erase (remLoopP cap x m n) = remLoop cap x m n := by
  induction n generalizing x m with
  | zero => rfl
  | succ n ih =>
    unfold remLoopP remLoop
    simp only [erase_bind, erase_free, erase_ite, erase_subAssignP, erase_pure, ih]
    rcases cmp m x with e | o
    · rfl
    · rcases o <;> rfl

theorem erase_remP (cap : Nat → Nat) (x m : BigUint) : erase (remP cap x m) = rem cap x m := by
  unfold remP rem
  simp only [erase_bind, erase_free, erase_ite, erase_remLoopP, erase_pure, erase_held, erase_shlP, ok_bind]
  rcases bitsUsed m with e | bm
  · rfl
  · rcases bitsUsed x with e | bx <;> rfl

theorem erase_mulModLoopP (cap : Nat → Nat) (m : BigUint) (fuel : Nat) (r a b : BigUint) :
    erase (mulModLoopP cap m fuel r a b) = mulModLoop cap m fuel r a b := by
  induction fuel generalizing r a b with
  | zero => rfl
  | succ fuel ih =>
    unfold mulModLoopP mulModLoop
    simp only [erase_bind, erase_free, erase_ite, erase_remP, erase_pure, erase_addP, erase_shlP, ok_bind, ih]
    rcases bitsUsed b with e | bb
    · rfl
    · simp only [bind, Except.bind]
      split
      · rcases isSet b 0 with e | s
        · rfl
        · rcases s
          · rfl
          · rcases add r a with e | v <;> rfl
      · rfl

theorem erase_mulModP (cap : Nat → Nat) (a b m : BigUint) : erase (mulModP cap a b m) = mulMod cap a b m := by
  unfold mulModP mulMod
  simp only [erase_bind, erase_free, erase_mulModLoopP, erase_held, ok_bind]

theorem erase_powModLoopP (cap : Nat → Nat) (p m : BigUint) (k i : Nat) (r a : BigUint) :
    erase (powModLoopP cap p m k i r a) = powModLoop cap p m k i r a := by
  induction k generalizing i r a with
  | zero => rfl
  | succ k ih =>
    unfold powModLoopP powModLoop
    simp only [erase_bind, erase_free, erase_ite, erase_mulModP, erase_pure, ih]
    rcases isSet p i with e | s
    · rfl
    · rcases s <;> rfl

theorem erase_powModP (cap : Nat → Nat) (a p m : BigUint) : erase (powModP cap a p m) = powMod cap a p m := by
  unfold powModP powMod
  simp only [erase_bind, erase_free, erase_powModLoopP, erase_held, ok_bind]

/-! ## Bounds -/

/-- If the computation returns, no vector was longer than `N`. -/
def Within {α : Type} (x : P α) (N : Nat) : Prop := ∀ a n, x = .ok (a, n) → n ≤ N

theorem within_bind {α β : Type} {x : P α} {f : α → P β} {N : Nat} (hx : Within x N)
    (hf : ∀ a, erase x = .ok a → Within (f a) N) : Within (x >>= f) N := by
  intro b n h
  change P.bind x f = _ at h
  rcases x with e | ⟨a, c⟩
  · cases h
  · simp only [P.bind] at h
    rcases hfa : f a with e | ⟨b', c2⟩
    · rw [hfa] at h; cases h
    · rw [hfa] at h
      cases h
      exact Nat.max_le.2 ⟨hx a c rfl, hf a rfl _ c2 hfa⟩

theorem within_free {α : Type} (x : R α) (N : Nat) : Within (free x) N := by
  intro a n h
  rcases x with e | a'
  · cases h
  · cases h; exact Nat.zero_le _

theorem within_pure {α : Type} (a : α) (N : Nat) : Within (pure a : P α) N := by
  intro a n h; cases h; exact Nat.zero_le _

theorem within_held {n N : Nat} (h : n ≤ N) : Within (held n) N := by
  intro a k hk; cases hk; exact h

theorem within_ite {α : Type} {p : Prop} [Decidable p] {x y : P α} {N : Nat} (hx : p → Within x N) (hy : ¬ p → Within y N) :
    Within (if p then x else y) N := by
  split
  · exact hx ‹_›
  · exact hy ‹_›

theorem within_addByteP {x : BigUint} {b : U8} {N : Nat} (h : x.bytes.length + 1 ≤ N) : Within (addByteP x b) N :=
  within_bind (within_held h) fun _ _ => within_free _ _

theorem within_addP {x y : BigUint} {N : Nat} (hx : x.bytes.length + 1 ≤ N) (hy : y.bytes.length + 1 ≤ N) :
    Within (addP x y) N :=
  within_bind (within_held (by omega)) fun _ _ => within_free _ _

/-- What the allocator may give for the lengths up to `L + 1`, and one byte more. -/
def Room (cap : Nat → Nat) (L N : Nat) : Prop := ∀ k, k ≤ L + 1 → cap k + 1 ≤ N

theorem within_subAssignP {cap : Nat → Nat} {L N : Nat} (hN : Room cap L N) (hL : L + 2 ≤ N) (x y : BigUint)
    (hx : x.bytes.length ≤ L) (hLb : x.bytes.length + 2 ≤ N) : Within (subAssignP cap x y) N := by
  have hcap := hN (x.bytes.length + 1) (by omega)
  unfold subAssignP
  refine within_bind (within_free _ _) fun curr _ => within_bind (within_free _ _) fun offset ho => ?_
  refine within_bind (within_held (by omega)) fun _ _ => ?_
  refine within_bind (within_addByteP (by omega)) fun x' hx' => ?_
  rw [erase_addByteP, addByte_eq] at hx'
  cases hx'
  have hlen : (big (val x + (1#8).toNat)).bytes.length ≤ x.bytes.length + 1 := by
    apply length_le_iff.2
    have h1 := val_lt x
    have h2 : (1#8).toNat = 1 := rfl
    rw [Nat.pow_succ, h2]
    omega
  have hinv : (trim (y.bytes.map (~~~ ·) ++ List.replicate offset (~~~0#8))).length ≤ cap (x.bytes.length + 1) := by
    refine Nat.le_trans (length_trim_le _) ?_
    rw [erase_free] at ho
    unfold subU at ho
    split at ho
    · cases ho
      simp only [List.length_append, List.length_map, List.length_replicate]
      omega
    · cases ho
  exact within_bind (within_addP (Nat.le_trans (Nat.succ_le_succ hlen) hLb) (Nat.le_trans (Nat.succ_le_succ hinv) hcap))
    fun _ _ => within_free _ _

/-- A difference that comes out is not longer than what it was subtracted from. -/
theorem subAssign_length {cap : Nat → Nat} (hc : CapOk cap) {x y z : BigUint} (hy : Normalised y)
    (hl : x.bytes.length ≤ 2 ^ 28) (h : subAssign cap x y = .ok z) : z.bytes.length ≤ x.bytes.length := by
  have hx : Normalised x := by
    by_contra hw
    obtain ⟨e, he⟩ := bitsUsed_panics hw
    unfold subAssign at h; rw [he] at h; cases h
  have ex := eq_big hx
  rw [eq_big hy, subAssign_eq ex hc hl] at h
  split at h
  · cases h
    have h1 : ((256 ^ cap (x.bytes.length + 1) + val x - val y) % 2 ^ (val x).size).size ≤ (val x).size :=
      Nat.size_le.2 (Nat.mod_lt _ (Nat.two_pow_pos _))
    have h2 := length_big (val x)
    rw [← ex] at h2
    rw [length_big]
    omega
  · cases h

theorem within_remLoopP {cap : Nat → Nat} (hc : CapOk cap) {L N : Nat} (hN : Room cap L N) (hL : L + 2 ≤ N)
    (hLb : L ≤ 2 ^ 28) (n : Nat) (x m : BigUint) (hx : x.bytes.length ≤ L) : Within (remLoopP cap x m n) N := by
  induction n generalizing x m with
  | zero => exact within_pure _ _
  | succ n ih =>
    unfold remLoopP
    refine within_bind ?_ fun x' hx' => within_bind (within_free _ _) fun m' _ => ih x' m' ?_
    · exact within_bind (within_free _ _) fun o _ =>
        within_ite (fun _ => within_subAssignP hN hL x m hx (by omega)) fun _ => within_pure _ _
    · simp only [erase_bind, erase_free, erase_ite, erase_subAssignP, erase_pure] at hx'
      cases hcmp : Big.cmp m x with
      | error e => rw [hcmp] at hx'; cases hx'
      | ok o =>
        rw [hcmp, ok_bind] at hx'
        have hm : Normalised m := by
          by_contra hw
          obtain ⟨e, he⟩ := bitsUsed_panics hw
          unfold Big.cmp at hcmp; rw [he] at hcmp; cases hcmp
        split at hx'
        · exact Nat.le_trans (subAssign_length hc hm (by omega) hx') hx
        · cases hx'; exact hx

theorem within_remP {cap : Nat → Nat} (hc : CapOk cap) {L N : Nat} (hN : Room cap L N) (hL : L + 2 ≤ N)
    (hLb : L ≤ 2 ^ 28) (a y : Nat) (ha : (big a).bytes.length ≤ L) (hy : 0 < y) (hyl : (big y).bytes.length ≤ L) :
    Within (remP cap (big a) (big y)) N := by
  have ea := bitsUsed_norm (norm_big a) (show (big a).bytes.length < 2 ^ 29 by omega)
  have ey := bitsUsed_norm (norm_big y) (show (big y).bytes.length < 2 ^ 29 by omega)
  rw [val_big] at ea ey
  unfold remP
  refine within_bind (within_free _ _) fun by' hby => within_bind (within_free _ _) fun ba hba => ?_
  rw [erase_free, ey] at hby
  rw [erase_free, ea] at hba
  cases hby; cases hba
  refine within_ite (fun _ => within_pure _ _) fun hgt => ?_
  refine within_bind (within_free _ _) fun d hd => ?_
  rw [erase_free, ea, ey] at hd
  have hd' : d = a.size - y.size := by
    simp only [bind, Except.bind, subU] at hd
    rw [if_pos (by omega)] at hd
    cases hd; rfl
  refine within_bind (within_held (by omega)) fun _ _ => ?_
  have hs : (y * 2 ^ d).size ≤ a.size := by
    rw [Nat.size_le]
    calc y * 2 ^ d < 2 ^ y.size * 2 ^ d := Nat.mul_lt_mul_of_pos_right (Nat.lt_size_self y) (Nat.two_pow_pos _)
      _ = 2 ^ a.size := by rw [← Nat.pow_add, hd', Nat.add_sub_cancel' (by omega)]
  have hsl : (shl (big y) d).bytes.length ≤ (big a).bytes.length := by
    rw [shl_big hy.ne', length_big, length_big]; omega
  refine within_bind ?_ fun m _ => within_remLoopP hc hN hL hLb _ _ _ ha
  unfold shlP
  exact within_bind (within_held (by split <;> omega)) fun _ _ => within_bind (within_held (by omega)) fun _ _ => within_pure _ _

theorem within_mulModLoopP {cap : Nat → Nat} (hc : CapOk cap) {L N : Nat} (hN : Room cap (L + 1) N) (hL : L + 3 ≤ N)
    (hLb : L + 1 ≤ 2 ^ 28) (m : Nat) (hm : 0 < m) (hml : (big m).bytes.length ≤ L) (fuel r a b : Nat) (hr : r < m)
    (ha : (big a).bytes.length ≤ L) (hb : (big b).bytes.length ≤ L) :
    Within (mulModLoopP cap (big m) fuel (big r) (big a) (big b)) N := by
  induction fuel generalizing r a b with
  | zero => exact within_free _ _
  | succ fuel ih =>
    have hpm := length_le_iff.1 hml
    have hpa := length_le_iff.1 ha
    have hlra : (big (r + a)).bytes.length ≤ L + 1 := length_le_iff.2 (by rw [Nat.pow_succ]; omega)
    have hl2a : (big (a * 2)).bytes.length ≤ L + 1 := length_le_iff.2 (by rw [Nat.pow_succ]; omega)
    have hrl : (big r).bytes.length ≤ L := Nat.le_trans (length_big_mono hr.le) hml
    have erem : ∀ x, (big x).bytes.length ≤ L + 1 → rem cap (big x) (big m) = .ok (big (x % m)) := fun x hx =>
      rem_eq hc x m hm (by omega) (by omega)
    unfold mulModLoopP
    refine within_bind (within_free _ _) fun bb hbb => within_ite (fun hne => ?_) fun _ => within_pure _ _
    refine within_bind (x := (do if (← free (isSet (big b) 0)) then remP cap (← addP (big r) (big a)) (big m) else pure (big r) :
      P BigUint)) ?_ fun r' hr' => ?_
    · refine within_bind (within_free _ _) fun s _ => within_ite (fun _ => ?_) fun _ => within_pure _ _
      refine within_bind (within_addP (by omega) (by omega)) fun ra hra => ?_
      rw [erase_addP, add_eq, val_big, val_big] at hra
      cases hra
      exact within_remP hc hN (by omega) hLb _ _ hlra hm (by omega)
    · obtain ⟨r1, hr1, er'⟩ : ∃ r1, r1 < m ∧ r' = big r1 := by
        simp only [erase_bind, erase_free, erase_ite, erase_remP, erase_pure, erase_addP, add_eq, val_big, ok_bind,
          erem _ hlra] at hr'
        rcases hs : isSet (big b) 0 with e | s
        · rw [hs] at hr'; cases hr'
        · rw [hs, ok_bind] at hr'
          split at hr'
          · cases hr'; exact ⟨_, Nat.mod_lt _ hm, rfl⟩
          · cases hr'; exact ⟨r, hr, rfl⟩
      subst er'
      refine within_bind (x := shlP (big a) 1) ?_ fun a' ha' => ?_
      · unfold shlP
        refine within_bind (within_held (by split <;> omega)) fun _ _ => within_bind (within_held ?_) fun _ _ => within_pure _ _
        rw [shl_big_small _ _ (by omega), Nat.pow_one]; omega
      · rw [erase_shlP, shl_big_small _ _ (by omega), Nat.pow_one] at ha'
        cases ha'
        refine within_bind (within_remP hc hN (by omega) hLb _ _ hl2a hm (by omega)) fun a'' ha'' => ?_
        rw [erase_remP, erem _ hl2a] at ha''
        cases ha''
        refine within_bind (within_free _ _) fun b' hb' => ?_
        rw [erase_free, shr_big _ _ (by omega), Nat.pow_one] at hb'
        cases hb'
        exact ih _ _ _ hr1 (Nat.le_trans (length_big_mono (Nat.mod_lt _ hm).le) hml)
          (Nat.le_trans (length_big_mono (Nat.div_le_self b 2)) hb)

theorem within_mulModP {cap : Nat → Nat} (hc : CapOk cap) {L N : Nat} (hN : Room cap (L + 1) N) (hL : L + 3 ≤ N)
    (hLb : L + 1 ≤ 2 ^ 28) (m : Nat) (hm : 0 < m) (hml : (big m).bytes.length ≤ L) (a b : Nat)
    (ha : (big a).bytes.length ≤ L) (hb : (big b).bytes.length ≤ L) : Within (mulModP cap (big a) (big b) (big m)) N := by
  unfold mulModP
  refine within_bind (within_held (by omega)) fun _ _ => within_bind (within_held (by omega)) fun _ _ =>
    within_bind (within_free _ _) fun z hz => ?_
  rw [erase_free, fromU128_eq] at hz
  cases hz
  exact within_mulModLoopP hc hN hL hLb m hm hml _ 0 a b hm ha hb

theorem within_powModLoopP {cap : Nat → Nat} (hc : CapOk cap) {L N : Nat} (hN : Room cap (L + 1) N) (hL : L + 3 ≤ N)
    (hLb : L + 1 ≤ 2 ^ 28) (p : BigUint) (m : Nat) (hm : 0 < m) (hfm : Fits m) (hml : (big m).bytes.length ≤ L)
    (k i r a : Nat) (hfr : Fits r) (hr : (big r).bytes.length ≤ L) (hfa : Fits a) (ha : (big a).bytes.length ≤ L) :
    Within (powModLoopP cap p (big m) k i (big r) (big a)) N := by
  induction k generalizing i r a with
  | zero => exact within_pure _ _
  | succ k ih =>
    have small : ∀ x, Fits (x % m) ∧ (big (x % m)).bytes.length ≤ L := fun x =>
      ⟨hfm.mono (Nat.mod_lt _ hm).le, Nat.le_trans (length_big_mono (Nat.mod_lt _ hm).le) hml⟩
    unfold powModLoopP
    refine within_bind ?_ fun r' hr' => ?_
    · exact within_bind (within_free _ _) fun s _ =>
        within_ite (fun _ => within_mulModP hc hN hL hLb m hm hml r a hr ha) fun _ => within_pure _ _
    · obtain ⟨r1, er', hfr1, hr1⟩ : ∃ r1, r' = big r1 ∧ Fits r1 ∧ (big r1).bytes.length ≤ L := by
        simp only [erase_bind, erase_free, erase_ite, erase_mulModP, erase_pure, mulMod_ok hc r a m hm hfm hfr hfa] at hr'
        rcases hs : isSet p i with e | s
        · rw [hs] at hr'; cases hr'
        · rw [hs, ok_bind] at hr'
          split at hr'
          · cases hr'; exact ⟨_, rfl, small _⟩
          · cases hr'; exact ⟨r, rfl, hfr, hr⟩
      subst er'
      refine within_bind (within_mulModP hc hN hL hLb m hm hml a a ha ha) fun a' ha' => ?_
      rw [erase_mulModP, mulMod_ok hc a a m hm hfm hfa hfa] at ha'
      cases ha'
      exact ih _ _ _ hfr1 hr1 (small _).1 (small _).2

theorem powModP_ok {cap : Nat → Nat} (hc : CapOk cap) (a p m : Nat) (hm : 2 ≤ m) (hfm : Fits m) (hfa : Fits a)
    (hp : p.size ≤ 2 ^ 32 - 8) (L N : Nat) (hml : (big m).bytes.length ≤ L) (ha : (big a).bytes.length ≤ L)
    (hLb : L + 1 ≤ 2 ^ 28) (hN : Room cap (L + 1) N) :
    ∃ n, powModP cap (big a) (big p) (big m) = .ok (big (a ^ p % m), n) ∧ n ≤ N := by
  have he := (erase_powModP cap (big a) (big p) (big m)).trans (powMod_ok hc a p m hm hfm hfa hp)
  have h1 : 1 ≤ (big m).bytes.length := by
    rw [length_big]
    have : 0 < m.size := Nat.size_pos.2 (by omega)
    omega
  have hL : L + 3 ≤ N := by
    have h2 := hN (L + 2) (by omega)
    have h3 := (hc (L + 2) (by omega)).1
    omega
  have hw : Within (powModP cap (big a) (big p) (big m)) N := by
    unfold powModP
    refine within_bind (within_held (by omega)) fun _ _ => within_bind (within_held (by omega)) fun _ _ =>
      within_bind (within_free _ _) fun b _ => within_bind (within_free _ _) fun z hz => ?_
    rw [erase_free, fromU128_eq] at hz
    cases hz
    have h1f : Fits 1 := hfm.mono (by omega)
    exact within_powModLoopP hc hN hL hLb _ m (by omega) hfm hml _ _ 1 a h1f
      (Nat.le_trans (length_big_mono (by omega)) hml) hfa ha
  rcases h : powModP cap (big a) (big p) (big m) with e | ⟨v, n⟩
  · rw [h] at he; cases he
  · rw [h] at he
    cases he
    exact ⟨n, rfl, hw _ n h⟩

end Verif.Model.Space
