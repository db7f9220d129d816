import Verif.Spec.Unwind
import Verif.Proof.Effects
import Verif.Proof.BigExact

/-! # Lemmas about the operations write by write -/

namespace Verif.Model.Unwind
open Verif Verif.Model.Effects Verif.Spec.Big
open _root_.Verif.Model.Big (BigUint trim addU16 bitsUsed cmp shl shr shlLoop shrLoop)

@[simp] theorem exec_get (x : BigUint) : Eff.exec (get : Mut BigUint) x = (.ok x, x) := rfl
@[simp] theorem exec_bytes (x : BigUint) : Eff.exec bytes x = (.ok x.bytes, x) := rfl
@[simp] theorem exec_setBytes (l : List U8) (x : BigUint) : Eff.exec (setBytes l) x = (.ok (), ⟨l⟩) := rfl
@[simp] theorem exec_push (b : U8) (x : BigUint) : Eff.exec (push b) x = (.ok (), ⟨x.bytes ++ [b]⟩) := rfl
@[simp] theorem exec_trimM (x : BigUint) : Eff.exec trimM x = (.ok (), ⟨trim x.bytes⟩) := rfl
@[simp] theorem exec_setAt (i : Nat) (b : U8) (x : BigUint) : Eff.exec (setAt i b) x = (.ok (), ⟨x.bytes.set i b⟩) := rfl

/-- The outcome in which a panic leaves the number as it was. -/
def outcome (r : R BigUint) (x : BigUint) : R Unit × BigUint :=
  match r with
  | .ok y => (.ok (), y)
  | .error e => (.error e, x)

theorem exec_update (i : Nat) (b : Bool) (x : BigUint) :
    Eff.exec (update i b) x = outcome (Model.Big.update x i b) x := by
  unfold update Model.Big.update
  simp only [exec_bind, exec_bytes, exec_ite]
  by_cases h : x.bytes.isEmpty
  · simp only [h, if_true, exec_throw]; rfl
  · by_cases h2 : i / 8 ≥ x.bytes.length
    · simp only [h, h2, if_true, exec_throw, exec_pure]; rfl
    · simp only [h, h2, if_false, exec_pure, exec_ofR]
      cases hb : idx x.bytes (i / 8) <;> rfl

theorem set_mid (p l : List U8) (b c : U8) : (p ++ b :: l).set p.length c = p ++ c :: l := by
  rw [List.set_append_right _ _ (Nat.le_refl _)]; simp

theorem idx_mid (p l : List U8) (b : U8) : idx (p ++ b :: l) p.length = .ok b := by
  unfold idx; rw [List.getElem?_append_right (Nat.le_refl _)]; simp

theorem exec_addByteLoop (p l o : List U8) (c : Nat) (h : Model.Big.addByteLoop l c = .ok o) :
    Eff.exec (addByteLoop p.length c l.length) ⟨p ++ l⟩ = (.ok (), ⟨p ++ o⟩) := by
  induction l generalizing p c o with
  | nil => cases h; rfl
  | cons b l ih =>
    rw [Model.Big.addByteLoop] at h
    rw [List.length_cons, addByteLoop]
    by_cases hc : c = 0
    · rw [if_pos hc] at h ⊢; cases h; rfl
    · rw [if_neg hc] at h ⊢
      simp only [exec_bind, exec_bytes, exec_pure, exec_ofR, idx_mid, exec_setAt, set_mid]
      cases hs : addU16 c b.toNat with
      | error e => rw [hs] at h; cases h
      | ok s =>
        rw [hs] at h
        simp only [bind, Except.bind] at h
        cases hr : Model.Big.addByteLoop l (s >>> 8 &&& 255) with
        | error e => rw [hr] at h; cases h
        | ok r =>
          rw [hr] at h; cases h
          have := ih (p ++ [BitVec.ofNat 8 (s &&& 255)]) _ _ hr
          simpa using this

theorem exec_addByte (b : U8) (x : BigUint) : Eff.exec (addByte b) x = outcome (Model.Big.addByte x b) x := by
  obtain ⟨o, ho, _⟩ := Model.Big.addByteLoop_ok (x.bytes ++ [0#8]) b.toNat b.isLt
  have h := exec_addByteLoop [] _ _ _ ho
  unfold addByte Model.Big.addByte
  simp only [List.length_nil, List.nil_append] at h
  simp only [exec_bind, exec_push, exec_bytes, h, exec_trimM, ho]
  rfl

theorem exec_pushZeros (n : Nat) (x : BigUint) :
    Eff.exec (pushZeros n) x = (.ok (), ⟨x.bytes ++ List.replicate n 0#8⟩) := by
  induction n generalizing x with
  | zero => simp [pushZeros]
  | succ n ih => simp [pushZeros, exec_bind, ih, List.replicate_succ]

theorem exec_addLoop (r p l o : List U8) (t : U8) (c : Nat)
    (h : Model.Big.addLoop l (r.drop p.length) c = .ok o) :
    ∃ q k, Eff.exec (addLoop r p.length c l.length) ⟨p ++ l ++ [t]⟩ = (.ok k, ⟨p ++ q ++ [t]⟩) ∧ q.length = l.length ∧
      o = q ++ [BitVec.ofNat 8 k] := by
  induction l generalizing p c o with
  | nil => cases h; exact ⟨[], c, rfl, rfl, rfl⟩
  | cons b l ih =>
    rw [Model.Big.addLoop] at h
    rw [List.length_cons, addLoop]
    simp only [List.append_assoc, List.cons_append, exec_bind, exec_bytes, exec_pure, exec_ofR, idx_mid, exec_setAt, set_mid]
    cases hs : addU16 c b.toNat with
    | error e => rw [hs] at h; cases h
    | ok s =>
      rw [hs] at h
      have key : ∀ s', Model.Big.addLoop l (r.drop (p.length + 1)) (s' >>> 8 &&& 255) = .ok (o.tail) →
          o = BitVec.ofNat 8 (s' &&& 255) :: o.tail →
          ∃ q k, Eff.exec (addLoop r (p.length + 1) (s' >>> 8 &&& 255) l.length)
            ⟨p ++ BitVec.ofNat 8 (s' &&& 255) :: (l ++ [t])⟩ = (.ok k, ⟨p ++ (q ++ [t])⟩) ∧ q.length = l.length + 1 ∧
            o = q ++ [BitVec.ofNat 8 k] := by
        intro s' h1 h2
        obtain ⟨q, k, e1, e2, e3⟩ := ih (p ++ [BitVec.ofNat 8 (s' &&& 255)]) o.tail _ (by simpa using h1)
        refine ⟨BitVec.ofNat 8 (s' &&& 255) :: q, k, by simpa using e1, by simp [e2], ?_⟩
        rw [h2, e3]; rfl
      by_cases hr : p.length < r.length
      · obtain ⟨y, ys, hy⟩ : ∃ y ys, r.drop p.length = y :: ys := ⟨_, _, List.drop_eq_getElem_cons hr⟩
        have hys : r.drop (p.length + 1) = ys := by rw [← List.tail_drop, hy]; rfl
        have hiy : idx r p.length = .ok y := by
          unfold idx
          have : r[p.length]? = some y := by rw [← List.head?_drop, hy]; rfl
          rw [this]
        simp only [hr, if_true]
        rw [hy] at h
        simp only [bind, Except.bind] at h
        cases hs' : addU16 s y.toNat with
        | error e => rw [hs'] at h; cases h
        | ok s' =>
          rw [hs'] at h
          simp only [List.tail_cons] at h
          cases hl : Model.Big.addLoop l ys (s' >>> 8 &&& 255) with
          | error e => rw [hl] at h; cases h
          | ok o' =>
            rw [hl] at h; cases h
            have := key s' (by rw [hys]; exact hl) rfl
            have e : (do addU16 s (← idx r p.length).toNat : R Nat) = .ok s' := by rw [hiy]; exact hs'
            simp only [exec_bind, exec_ofR, e, exec_setAt, set_mid]
            exact this
      · have hd : r.drop p.length = [] := List.drop_eq_nil_of_le (by omega)
        simp only [hr, if_false, exec_pure]
        rw [hd] at h
        simp only [bind, Except.bind, List.tail_nil] at h
        cases hl : Model.Big.addLoop l [] (s >>> 8 &&& 255) with
        | error e => rw [hl] at h; cases h
        | ok o' =>
          rw [hl] at h; cases h
          have := key s (by rw [List.drop_eq_nil_of_le (by omega)]; exact hl) rfl
          simp only [exec_bind, exec_pure, exec_setAt, set_mid]
          exact this

theorem exec_add (y x : BigUint) : Eff.exec (add y) x = outcome (Model.Big.add x y) x := by
  obtain ⟨o, ho, _⟩ := Model.Big.addLoop_ok (x.bytes ++ List.replicate (y.bytes.length - x.bytes.length) 0#8) y.bytes 0
    (by omega) (by simp; omega)
  obtain ⟨q, k, e1, e2, e3⟩ := exec_addLoop y.bytes [] _ o 0#8 0 ho
  unfold add Model.Big.add
  simp only [List.length_nil, List.nil_append] at e1
  simp only [exec_bind, exec_bytes, exec_pushZeros, exec_push, List.length_append, List.length_singleton, Nat.add_sub_cancel]
  rw [List.length_append] at e1 e2
  rw [e1]
  simp only [exec_setAt, exec_trimM, ← e2, set_mid, ho]
  rw [e3]
  rfl

theorem exec_clearLoop (x z : BigUint) (i n : Nat) (h : Model.Big.clearLoop x i n = .ok z) :
    Eff.exec (clearLoop i n) x = (.ok (), z) := by
  induction n generalizing x i with
  | zero => cases h; rfl
  | succ n ih =>
    rw [Model.Big.clearLoop] at h
    rw [clearLoop, exec_bind, exec_update]
    cases hu : Model.Big.update x i false with
    | error e => rw [hu] at h; cases h
    | ok y => rw [hu] at h; exact ih _ _ h

theorem length_inv_le (y : List U8) (c : Nat) (h : y.length ≤ c) :
    (trim (y.map (~~~ ·) ++ List.replicate (c - y.length) (~~~0#8))).length ≤ c := by
  refine Nat.le_trans (Model.Big.length_trim_le _) ?_
  simp only [List.length_append, List.length_map, List.length_replicate]
  omega

theorem exec_subAssign {cap : Nat → Nat} (hc : CapOk cap) (x y : BigUint) (hl : x.bytes.length ≤ 2 ^ 28) :
    Eff.exec (subAssign cap y) x = outcome (Model.Big.subAssign cap x y) x := by
  obtain ⟨hc1, hc2⟩ := hc (x.bytes.length + 1) (by omega)
  unfold subAssign Model.Big.subAssign
  simp only [exec_bind, exec_get, exec_bytes, exec_ofR]
  cases hb : bitsUsed x with
  | error e => rfl
  | ok curr =>
    simp only
    cases ho : subU (cap (x.bytes.length + 1)) y.bytes.length with
    | error e => rfl
    | ok offset =>
      have hle : y.bytes.length ≤ cap (x.bytes.length + 1) := by
        unfold subU at ho; split at ho
        · assumption
        · cases ho
      have hof : offset = cap (x.bytes.length + 1) - y.bytes.length := by
        unfold subU at ho; rw [if_pos hle] at ho; cases ho; rfl
      subst hof
      simp only [exec_addByte, Model.Big.addByte_eq, outcome, exec_add, Model.Big.add_eq, bind, Except.bind]
      generalize hinv : (⟨trim (y.bytes.map (~~~ ·) ++
        List.replicate (cap (x.bytes.length + 1) - y.bytes.length) (~~~0#8))⟩ : BigUint) = inv
      have hli : inv.bytes.length ≤ cap (x.bytes.length + 1) := by rw [← hinv]; exact length_inv_le _ _ hle
      generalize hW : val (big (val x + (1#8).toNat)) + val inv = W
      have hWb : W < 256 ^ (cap (x.bytes.length + 1) + 1) := by
        rw [← hW, Model.Big.val_big]
        have h1 := Model.Big.val_lt x
        have h2 := Model.Big.val_lt inv
        have h3 : 256 ^ x.bytes.length ≤ 256 ^ cap (x.bytes.length + 1) := Nat.pow_le_pow_right (by omega) (by omega)
        have h4 : 256 ^ inv.bytes.length ≤ 256 ^ cap (x.bytes.length + 1) := Nat.pow_le_pow_right (by omega) hli
        have h5 : (1#8).toNat = 1 := rfl
        rw [Nat.pow_succ, h5]
        omega
      have hlen : (big W).bytes.length ≤ cap (x.bytes.length + 1) + 1 := Model.Big.length_le_iff.2 hWb
      rw [Model.Big.bitsUsed_norm (Model.Big.norm_big W) (by omega), Model.Big.val_big]
      simp only
      have hsz := Model.Big.size_val_le (big W)
      rw [Model.Big.val_big] at hsz
      obtain ⟨z, hz⟩ : ∃ z, Model.Big.clearLoop (big W) curr (W.size - curr) = .ok z := by
        rcases Nat.le_total W.size curr with h | h
        · rw [Nat.sub_eq_zero_of_le h]; exact ⟨_, rfl⟩
        · obtain ⟨z, hz, _⟩ := Model.Big.clearLoop_ok (big W) curr (W.size - curr) (by omega)
          exact ⟨z, hz⟩
      rw [exec_clearLoop _ _ _ _ hz, hz]
      rfl

theorem exec_remLoop_ok {cap : Nat → Nat} (hc : CapOk cap) (n : Nat) (x m z : BigUint) (hl : x.bytes.length ≤ 2 ^ 28)
    (h : Model.Big.remLoop cap x m n = .ok z) : Eff.exec (remLoop cap m n) x = (.ok (), z) := by
  induction n generalizing x m with
  | zero => cases h; rfl
  | succ n ih =>
    rw [Model.Big.remLoop] at h
    rw [remLoop]
    simp only [exec_bind, exec_get, exec_ofR, exec_ite]
    cases hcmp : cmp m x with
    | error e => rw [hcmp] at h; cases h
    | ok o =>
      rw [hcmp] at h
      simp only [bind, Except.bind] at h
      simp only
      by_cases ho : o ≠ .gt
      · rw [if_pos ho] at h
        rw [if_pos ho, exec_subAssign hc x m hl]
        cases hs : Model.Big.subAssign cap x m with
        | error e => rw [hs] at h; cases h
        | ok x' =>
          rw [hs] at h
          simp only [outcome] at h ⊢
          have hx' : x'.bytes.length ≤ 2 ^ 28 := by
            have hn : ∀ w : BigUint, (∀ e, bitsUsed w ≠ .error e) → w = big (val w) := fun w hw =>
              Model.Big.eq_big (by
                by_contra hw'
                obtain ⟨e, he⟩ := Model.Big.bitsUsed_panics hw'
                exact hw e he)
            have hbm : m = big (val m) := hn m fun e he => by
              unfold Model.Big.cmp at hcmp; rw [he] at hcmp; cases hcmp
            have hbx : x = big (val x) := hn x fun e he => by
              unfold Model.Big.subAssign at hs; rw [he] at hs; cases hs
            rw [hbm, Model.Big.subAssign_eq hbx hc hl] at hs
            split at hs
            · cases hs
              have h1 : ((256 ^ cap (x.bytes.length + 1) + val x - val m) % 2 ^ (val x).size).size ≤ (val x).size :=
                Nat.size_le.2 (Nat.mod_lt _ (Nat.two_pow_pos _))
              have h2 := Model.Big.length_big (val x)
              rw [← hbx] at h2
              rw [Model.Big.length_big]
              omega
            · cases hs
          cases hr : shr m 1 with
          | error e => rw [hr] at h; cases h
          | ok m' => rw [hr] at h; exact ih x' m' hx' h
      · rw [if_neg ho] at h
        rw [if_neg ho]
        cases hr : shr m 1 with
        | error e => rw [hr] at h; cases h
        | ok m' => rw [hr] at h; exact ih x m' hl h

/-- A remainder that panics does so before its first write. -/
theorem exec_rem {cap : Nat → Nat} (hc : CapOk cap) (x y : BigUint) (hl : x.bytes.length ≤ 2 ^ 28)
    (hy : y.bytes.length < 2 ^ 29) : Eff.exec (rem cap y) x = outcome (Model.Big.rem cap x y) x := by
  have hn : ∀ (w : BigUint) (n : Nat), bitsUsed w = .ok n → Normalised w := fun w n hw => by
    by_contra hw'
    obtain ⟨e, he⟩ := Model.Big.bitsUsed_panics hw'
    rw [he] at hw; cases hw
  cases hok : Model.Big.rem cap x y with
  | ok z =>
    unfold Model.Big.rem at hok
    unfold rem
    simp only [exec_bind, exec_get, exec_ofR, exec_ite]
    cases hby : bitsUsed y with
    | error e => rw [hby] at hok; cases hok
    | ok ny =>
      cases hbx : bitsUsed x with
      | error e => rw [hby, hbx] at hok; cases hok
      | ok nx =>
        rw [hby, hbx] at hok
        simp only [bind, Except.bind] at hok
        simp only [hbx]
        by_cases hgt : ny > nx
        · rw [if_pos hgt] at hok ⊢; cases hok; rfl
        · rw [if_neg hgt] at hok ⊢
          cases hd : subU nx ny with
          | error e => rw [hd] at hok; cases hok
          | ok d =>
            rw [hd] at hok
            simp only
            rw [exec_remLoop_ok hc _ _ _ _ hl hok]
            rfl
  | error e =>
    unfold rem
    simp only [exec_bind, exec_get, exec_ofR, exec_ite]
    cases hby : bitsUsed y with
    | error e' =>
      unfold Model.Big.rem at hok
      rw [hby] at hok; cases hok; rfl
    | ok ny =>
      cases hbx : bitsUsed x with
      | error e' =>
        unfold Model.Big.rem at hok
        rw [hby, hbx] at hok; cases hok; simp only [hbx]; rfl
      | ok nx =>
        have ex := Model.Big.eq_big (hn x nx hbx)
        have ey := Model.Big.eq_big (hn y ny hby)
        -- only a remainder by zero is left
        have hy0 : val y = 0 := by
          by_contra h0
          have := Model.Big.rem_eq hc (val x) (val y) (Nat.pos_of_ne_zero h0) (by rw [← ex]; exact hl) (by rw [← ey]; exact hy)
          rw [← ex, ← ey, hok] at this
          cases this
        have hy0' : y = big 0 := by rw [ey, hy0]
        have h128 : ¬ val x < 128 := fun h => by
          have := Model.Big.rem_zero hc (val x) (by rw [← ex]; exact hl)
          rw [← ex, ← hy0', if_pos h, hok] at this
          cases this
        have hxn : nx = (val x).size := by
          have := Model.Big.bitsUsed_norm (hn x nx hbx) (by omega)
          rw [hbx] at this; cases this; rfl
        have hyn : ny = 0 := by rw [hy0'] at hby; cases hby; rfl
        have hs : 7 < nx := by rw [hxn]; exact Nat.lt_size.2 (by omega)
        have hd : subU nx ny = .ok nx := by unfold subU; rw [hyn, if_pos (by omega)]; rfl
        have hz : shl y nx = Model.Big.zeros (nx / 8) := by rw [hy0', Model.Big.shl_zero]; rfl
        obtain ⟨k, hk⟩ : ∃ k, nx / 8 = k + 1 := ⟨nx / 8 - 1, by omega⟩
        have hcmp : ∃ e', Model.Big.cmp (shl y nx) x = .error e' := by
          obtain ⟨e', he'⟩ := Model.Big.bitsUsed_panics (Model.Big.not_norm_zeros k)
          refine ⟨e', ?_⟩
          unfold Model.Big.cmp
          rw [hz, hk, he']
          rfl
        obtain ⟨e', hcmp⟩ := hcmp
        unfold Model.Big.rem at hok
        rw [hby, hbx] at hok
        simp only [bind, Except.bind] at hok
        simp only [hbx]
        rw [if_neg (by omega)] at hok ⊢
        rw [hd] at hok ⊢
        simp only [Model.Big.remLoop, hcmp, bind, Except.bind] at hok
        cases hok
        simp only [remLoop, exec_bind, exec_get, exec_ofR, hcmp]
        rfl

theorem exec_shl (k : Nat) (x : BigUint) : Eff.exec (shlAssign k) x = (.ok (), shl x k) := by
  unfold shlAssign Model.Big.shl
  simp only [exec_bind, exec_ite, exec_push, exec_bytes, exec_setBytes, exec_trimM, exec_pure]
  by_cases h1 : k - k / 8 * 8 > 0 <;> by_cases h2 : k / 8 > 0 <;> simp only [h1, h2, if_true, if_false] <;> rfl

theorem exec_shr (k : Nat) (x : BigUint) : Eff.exec (shrAssign k) x = outcome (shr x k) x := by
  unfold shrAssign Model.Big.shr
  simp only [exec_bind, exec_ite, exec_bytes, exec_setBytes, exec_trimM, exec_pure, exec_throw]
  by_cases h1 : k ≥ 8
  · by_cases h2 : k / 8 ≤ x.bytes.length
    · by_cases h3 : k - k / 8 * 8 > 0 <;> simp only [h1, h2, h3, if_true, if_false] <;> rfl
    · simp only [h1, h2, if_true, if_false]; rfl
  · by_cases h3 : k > 0 <;> simp only [h1, h3, if_true, if_false] <;> rfl

end Verif.Model.Unwind
