import Verif.Model.OaepTrace
import Verif.Proof.Oaep

namespace Verif.Model.OaepTrace
open Verif Verif.Model.Big Verif.Model.Rsa Verif.Model.Oaep

/-! ## Forgetting the counts -/

theorem fst_bind {α β : Type} (x : T α) (f : α → T β) : (x >>= f).1 = (x.1 >>= fun a => (f a).1) := by
  rcases x with ⟨e | a, c⟩ <;> rfl

theorem fst_free {α : Type} (x : R α) : (free x).1 = x := rfl
theorem fst_pure {α : Type} (a : α) : (pure a : T α).1 = .ok a := rfl

theorem fst_ite {α : Type} (p : Prop) [Decidable p] (x y : T α) : (if p then x else y).1 = if p then x.1 else y.1 := by
  split <;> rfl

theorem fst_hashT {N : Nat} (hash : List U8 → R (Vector U8 N)) (m : List U8) : (hashT hash m).1 = hash m := rfl

theorem fst_mgf1LoopT {N : Nat} (hash : List U8 → R (Vector U8 N)) (seed : List U8) (n fuel : Nat) (output : List U8)
    (counter : Nat) : (mgf1LoopT hash seed n fuel output counter).1 = mgf1Loop hash seed n fuel output counter := by
  induction fuel generalizing output counter with
  | zero => rfl
  | succ fuel ih =>
    unfold mgf1LoopT mgf1Loop
    rw [fst_ite]
    simp only [fst_bind, fst_hashT, fst_free, fst_pure, ih]

theorem fst_mgf1T {N : Nat} (hash : List U8 → R (Vector U8 N)) (seed : List U8) (n : Nat) :
    (mgf1T hash seed n).1 = mgf1 hash seed n := by
  unfold mgf1T mgf1
  simp only [fst_bind, fst_free, fst_mgf1LoopT]
  rfl

theorem fst_positionT (i : Nat) (bs : List U8) :
    (positionT i bs).1 = .ok ((bs.findIdx? (· ≠ 0#8)).map (i + ·)) := by
  induction bs generalizing i with
  | nil => rfl
  | cons b bs ih =>
    unfold positionT
    rw [fst_bind, List.findIdx?_cons]
    change (if b ≠ 0#8 then pure (some i) else positionT (i + 1) bs : T _).1 = _
    by_cases hb : b ≠ 0#8
    · rw [if_pos hb]
      simp only [hb, ne_eq, not_false_eq_true, decide_true, if_true, Option.map_some, Nat.add_zero]
      rfl
    · rw [if_neg hb, ih]
      simp only [hb, decide_false, Bool.false_eq_true, if_false, Option.map_map]
      congr 2
      funext j
      simp only [Function.comp]
      omega

theorem fst_decodeT {N : Nat} (hash : List U8 → R (Vector U8 N)) (label em : List U8) (k : Nat) :
    (decodeT hash label em k).1 = decode hash label em k := by
  unfold decodeT decode afterLabelT
  simp only [fst_bind, fst_free, fst_hashT, fst_ite, fst_pure, fst_mgf1T, fst_positionT]
  refine congrArg _ (funext fun b => ?_)
  by_cases hb : b ≠ 0#8
  · simp only [if_pos hb]; rfl
  · simp only [if_neg hb]
    refine congrArg _ (funext fun lh => ?_)
    refine congrArg _ (funext fun ms => ?_)
    refine congrArg _ (funext fun mdb => ?_)
    refine congrArg _ (funext fun sm => ?_)
    refine congrArg _ (funext fun s => ?_)
    refine congrArg _ (funext fun l => ?_)
    refine congrArg _ (funext fun l' => ?_)
    refine congrArg _ (funext fun dm => ?_)
    refine congrArg _ (funext fun db => ?_)
    refine congrArg _ (funext fun st => ?_)
    by_cases hs : st ≠ lh.toList
    · simp only [if_pos hs]; rfl
    · simp only [if_neg hs]
      refine congrArg _ (funext fun rest => ?_)
      simp only [Nat.zero_add, Option.map_id']
      change (match rest.findIdx? (· ≠ 0#8) with
        | none => _
        | some i => _ : T _).1 = _
      cases rest.findIdx? (· ≠ 0#8) with
      | none => rfl
      | some i =>
        simp only [fst_bind, fst_free, fst_ite, fst_pure]
        rfl

/-! ## The counts -/

theorem bind_ok {α β : Type} {x : T α} {f : α → T β} {b : β} {c : Count} (h : (x >>= f) = (.ok b, c)) :
    ∃ a c1 c2, x = (.ok a, c1) ∧ f a = (.ok b, c2) ∧ c = c1.plus c2 := by
  rcases x with ⟨e | a, c1⟩
  · exact absurd (congrArg Prod.fst h) (by intro h; cases h)
  · change ((f a).1, c1.plus (f a).2) = _ at h
    have h1 := congrArg Prod.fst h
    have h2 := congrArg Prod.snd h
    exact ⟨a, c1, (f a).2, rfl, Prod.ext h1 rfl, h2.symm⟩

theorem free_bind_ok {α β : Type} {x : R α} {f : α → T β} {b : β} {c : Count} (h : (free x >>= f) = (.ok b, c)) :
    ∃ a, x = .ok a ∧ f a = (.ok b, c) := by
  obtain ⟨a, c1, c2, h1, h2, h3⟩ := bind_ok h
  cases h1
  refine ⟨a, rfl, h2.trans ?_⟩
  rw [h3]
  simp [Count.plus]
  rfl

theorem pure_ok {α : Type} {a b : α} {c : Count} (h : (pure a : T α) = (.ok b, c)) : a = b ∧ c = ⟨0, 0⟩ := by
  cases h
  exact ⟨rfl, rfl⟩

theorem mgf1LoopT_count {N : Nat} (hN : 0 < N) {hash : List U8 → R (Vector U8 N)} {seed : List U8} {n fuel : Nat}
    {output out : List U8} {counter : Nat} {c : Count} (h : mgf1LoopT hash seed n fuel output counter = (.ok out, c)) :
    c = ⟨(n - output.length + N - 1) / N, 0⟩ := by
  induction fuel generalizing output counter c with
  | zero => cases h
  | succ fuel ih =>
    unfold mgf1LoopT at h
    by_cases hl : output.length < n
    · rw [if_pos hl] at h
      obtain ⟨d, c1, c2, h1, h2, h3⟩ := bind_ok h
      obtain ⟨c', h4, h5⟩ := free_bind_ok h2
      have := ih h5
      have e1 : c1 = ⟨1, 0⟩ := (congrArg Prod.snd h1).symm
      rw [h3, this, e1]
      simp only [Count.plus, List.length_append, Vector.length_toList, Nat.add_zero]
      congr 1
      by_cases hge : N ≤ n - output.length
      · rw [show n - output.length + N - 1 = (n - (output.length + N) + N - 1) + N by omega,
          Nat.add_div_right _ hN]
        omega
      · rw [show n - (output.length + N) = 0 by omega, Nat.zero_add, Nat.div_eq_of_lt (by omega : N - 1 < N)]
        symm
        rw [Nat.add_zero]
        exact Nat.div_eq_of_lt_le (by omega) (by omega)
    · rw [if_neg hl] at h
      rw [(pure_ok h).2, show n - output.length = 0 by omega, Nat.zero_add, Nat.div_eq_of_lt (by omega : N - 1 < N)]

theorem mgf1LoopT_length {N : Nat} {hash : List U8 → R (Vector U8 N)} {seed : List U8} {n fuel : Nat}
    {output out : List U8} {counter : Nat} {c : Count} (h : mgf1LoopT hash seed n fuel output counter = (.ok out, c)) :
    n ≤ out.length := by
  induction fuel generalizing output counter c with
  | zero => cases h
  | succ fuel ih =>
    unfold mgf1LoopT at h
    by_cases hl : output.length < n
    · rw [if_pos hl] at h
      obtain ⟨d, c1, c2, h1, h2, h3⟩ := bind_ok h
      obtain ⟨c', h4, h5⟩ := free_bind_ok h2
      exact ih h5
    · rw [if_neg hl] at h
      rw [← (pure_ok h).1]
      omega

theorem mgf1T_count {N : Nat} (hN : 0 < N) {hash : List U8 → R (Vector U8 N)} {seed out : List U8} {n : Nat} {c : Count}
    (h : mgf1T hash seed n = (.ok out, c)) : c = ⟨(n + N - 1) / N, 0⟩ := by
  unfold mgf1T at h
  obtain ⟨_, _, h⟩ := free_bind_ok h
  obtain ⟨_, _, h⟩ := free_bind_ok h
  obtain ⟨o, c1, c2, h1, h2, h3⟩ := bind_ok h
  rw [h3, mgf1LoopT_count hN h1, (pure_ok h2).2]
  simp [Count.plus]

theorem positionT_count {i : Nat} {bs : List U8} {r : Option Nat} {c : Count} (h : positionT i bs = (.ok r, c)) :
    c.hashes = 0 ∧ (r = none → c.scanned = bs.length) ∧
      (∀ j, r = some j → c.scanned + i = j + 1 ∧ 1 ≤ c.scanned ∧ c.scanned ≤ bs.length) := by
  induction bs generalizing i c with
  | nil =>
    obtain ⟨rfl, rfl⟩ := pure_ok h
    refine ⟨rfl, fun _ => rfl, ?_⟩
    intro j hj
    cases hj
  | cons b bs ih =>
    unfold positionT at h
    obtain ⟨_, c1, c2, h1, h2, h3⟩ := bind_ok h
    have e1 : c1 = ⟨0, 1⟩ := (congrArg Prod.snd h1).symm
    subst e1
    by_cases hb : b ≠ 0#8
    · rw [if_pos hb] at h2
      obtain ⟨rfl, rfl⟩ := pure_ok h2
      subst h3
      refine ⟨rfl, (fun hn => nomatch hn), ?_⟩
      rintro j ⟨⟩
      simp [Count.plus]
      omega
    · rw [if_neg hb] at h2
      obtain ⟨g1, g2, g3⟩ := ih h2
      subst h3
      refine ⟨by simp [Count.plus, g1], fun hr => by simp [Count.plus, g2 hr]; omega, ?_⟩
      intro j hj
      obtain ⟨k1, k2, k3⟩ := g3 j hj
      simp [Count.plus]
      omega

theorem slice_length {xs ys : List U8} {a b : Nat} (h : slice xs a b = .ok ys) : ys.length = b - a ∧ a ≤ b ∧ b ≤ xs.length := by
  unfold slice at h
  split at h
  · next hc =>
    cases h
    rw [List.length_take, List.length_drop]
    omega
  · cases h

theorem xorSlices_length {a b c : List U8} (h : xorSlices a b = .ok c) : c.length = a.length ∧ a.length = b.length := by
  unfold xorSlices at h
  split at h
  · next hc =>
    cases h
    simp [hc]
  · cases h

/-- The counts of the part after the comparison of the label. -/
theorem afterLabelT_count {rest : List U8} {r : Except DecodeError (List U8)} {c : Count}
    (h : afterLabelT rest = (.ok r, c)) : c.hashes = 0 ∧
      ((r = .error .missingSeparator ∧ c.scanned = rest.length) ∨
       (r = .error .separatorNotOne ∧ 1 ≤ c.scanned ∧ c.scanned ≤ rest.length) ∨
       (∃ m, r = .ok m ∧ 1 ≤ c.scanned ∧ c.scanned + m.length = rest.length)) := by
  unfold afterLabelT at h
  obtain ⟨p, c1, c2, h1, h2, h3⟩ := bind_ok h
  obtain ⟨g1, g2, g3⟩ := positionT_count h1
  cases p with
  | none =>
    obtain ⟨rfl, rfl⟩ := pure_ok h2
    subst h3
    exact ⟨by simp [Count.plus, g1], Or.inl ⟨rfl, by simp [Count.plus, g2 rfl]⟩⟩
  | some i =>
    obtain ⟨k1, k2, k3⟩ := g3 i rfl
    obtain ⟨b, hb, h2⟩ := free_bind_ok h2
    split at h2
    · obtain ⟨rfl, rfl⟩ := pure_ok h2
      subst h3
      exact ⟨by simp [Count.plus, g1], Or.inr (Or.inl ⟨rfl, by simp [Count.plus]; omega⟩)⟩
    · obtain ⟨m, hm, h2⟩ := free_bind_ok h2
      obtain ⟨rfl, rfl⟩ := pure_ok h2
      subst h3
      have := slice_length hm
      exact ⟨by simp [Count.plus, g1], Or.inr (Or.inr ⟨m, rfl, by simp [Count.plus]; omega⟩)⟩

/-- The counts of a whole call. -/
theorem decodeT_count {N : Nat} (hN : 0 < N) {hash : List U8 → R (Vector U8 N)} {label em : List U8} {k : Nat}
    {r : Except DecodeError (List U8)} {c : Count} (h : decodeT hash label em k = (.ok r, c)) :
    (r = .error .firstByteNotZero ∧ c = ⟨0, 0⟩) ∨
    (c.hashes = 2 + (k - N - 1 + N - 1) / N ∧
      ((r = .error .wrongLabel ∧ c.scanned = 0) ∨
       (r = .error .missingSeparator ∧ c.scanned = k - 2 * N - 1) ∨
       (r = .error .separatorNotOne ∧ 1 ≤ c.scanned ∧ c.scanned ≤ k - 2 * N - 1) ∨
       (∃ m, r = .ok m ∧ 1 ≤ c.scanned ∧ c.scanned + m.length = k - 2 * N - 1))) := by
  unfold decodeT at h
  obtain ⟨b, _, h⟩ := free_bind_ok h
  by_cases hb : b ≠ 0#8
  · rw [if_pos hb] at h
    obtain ⟨rfl, rfl⟩ := pure_ok h
    exact Or.inl ⟨rfl, rfl⟩
  · rw [if_neg hb] at h
    right
    obtain ⟨lh, c1, c2, h1, h, hc⟩ := bind_ok h
    obtain ⟨ms, hms, h⟩ := free_bind_ok h
    obtain ⟨mdb, hmdb, h⟩ := free_bind_ok h
    obtain ⟨sm, c3, c4, h3, h, hc4⟩ := bind_ok h
    obtain ⟨s, hs, h⟩ := free_bind_ok h
    obtain ⟨l1, hl1, h⟩ := free_bind_ok h
    obtain ⟨l2, hl2, h⟩ := free_bind_ok h
    obtain ⟨dm, c5, c6, h5, h, hc6⟩ := bind_ok h
    obtain ⟨db, hdb, h⟩ := free_bind_ok h
    obtain ⟨st, hst, hf⟩ := free_bind_ok h
    have e1 : c1 = ⟨1, 0⟩ := (congrArg Prod.snd h1).symm
    have e3 := mgf1T_count hN h3
    have e5 := mgf1T_count hN h5
    have hl : l2 = k - N - 1 := by
      unfold subU at hl1 hl2
      split at hl1 <;> cases hl1
      split at hl2 <;> cases hl2
      rfl
    have hdm : dm.length = l2 := by
      have h5' := h5
      unfold mgf1T at h5'
      obtain ⟨_, _, h5'⟩ := free_bind_ok h5'
      obtain ⟨_, _, h5'⟩ := free_bind_ok h5'
      obtain ⟨o, _, _, g1, g2, _⟩ := bind_ok h5'
      rw [← (pure_ok g2).1, List.length_take]
      have := mgf1LoopT_length g1
      omega
    have hx := xorSlices_length hdb
    have hN1 : (N + N - 1) / N = 1 := Nat.div_eq_of_lt_le (by omega) (by omega)
    rw [hc4, hc6] at hc
    subst hc
    by_cases hst' : st ≠ lh.toList
    · rw [if_pos hst'] at hf
      obtain ⟨rfl, rfl⟩ := pure_ok hf
      refine ⟨?_, Or.inl ⟨rfl, ?_⟩⟩
      · simp [Count.plus, e1, e3, e5, hN1, hl]; omega
      · simp [Count.plus, e1, e3, e5]
    · rw [if_neg hst'] at hf
      obtain ⟨rest, hrest, hf⟩ := free_bind_ok hf
      obtain ⟨g1, g2⟩ := afterLabelT_count hf
      have hr := slice_length hrest
      refine ⟨?_, ?_⟩
      · simp [Count.plus, e1, e3, e5, hN1, hl, g1]; omega
      · right
        have hsc : ((c1.plus (c3.plus (c5.plus c6)))).scanned = c6.scanned := by simp [Count.plus, e1, e3, e5]
        rw [hsc]
        rcases g2 with ⟨rfl, g⟩ | ⟨rfl, g⟩ | ⟨m, rfl, g⟩
        · exact Or.inl ⟨rfl, by omega⟩
        · exact Or.inr (Or.inl ⟨rfl, by omega⟩)
        · exact Or.inr (Or.inr ⟨m, rfl, by omega⟩)

end Verif.Model.OaepTrace
