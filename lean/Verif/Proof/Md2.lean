import Verif.Spec.Md2
import Verif.Model.Md2
import Verif.Proof.PiDigits
import Verif.Proof.Sha

/-! # MD2 -/

namespace Verif.Model.Md2
open Verif

/-! ## The table -/

/-- The digits, computed. -/
def digits : List Nat := (List.range 722).map fun i => PiDigits.N722 / 10 ^ (721 - i) % 10

theorem digits_eq : (List.range 722).map Spec.Md2.piDigit = digits := by
  unfold digits
  refine List.map_congr_left fun i hi => ?_
  have hi' : i < 722 := List.mem_range.1 hi
  unfold Spec.Md2.piDigit
  rw [PiDigits.floor_pi i (by omega)]

theorem shuffle_digits : Spec.Md2.shuffle digits = S.toList.map BitVec.toNat := by decide +kernel

theorem S_eq (b : U8) : S[b.toNat] = Spec.Md2.S b := by
  unfold Spec.Md2.S
  rw [digits_eq, shuffle_digits]
  have h := b.isLt
  rw [List.getD_eq_getElem?_getD, List.getElem?_map, List.getElem?_eq_getElem (by simpa using h)]
  simp

/-! ## The checksum -/

theorem checksum_steps (p : List U8) (chunk : Vector U8 16) (i : Nat) (c : Vector U8 16) (l : U8)
    (hp : ∀ j (_ : j < 16), p.getD (16 * i + j) 0#8 = chunk[j])
    (hc : ∀ j (_ : j < 16), c[j] = if i = 0 then 0#8 else Spec.Md2.chk p (16 * i - 16 + j))
    (hl : l = if i = 0 then 0#8 else Spec.Md2.chk p (16 * i - 1)) (k : Nat) (hk : k ≤ 16) :
    let s := Nat.fold k (fun j hj (s : Vector U8 16 × U8) =>
      let v := s.1[j] ^^^ S[(chunk[j] ^^^ s.2).toNat]
      (s.1.set j v, v)) (c, l)
    (∀ j (_ : j < 16), s.1[j] = if j < k then Spec.Md2.chk p (16 * i + j) else c[j]) ∧
    s.2 = if 16 * i + k = 0 then 0#8 else Spec.Md2.chk p (16 * i + k - 1) := by
  induction k with
  | zero =>
    refine ⟨fun j hj => by simp, ?_⟩
    simp only [Nat.fold_zero, Nat.add_zero, hl]
    by_cases h : i = 0
    · simp [h]
    · rw [if_neg h, if_neg (by omega)]
  | succ k ih =>
    obtain ⟨ih1, ih2⟩ := ih (by omega)
    have hv : (Nat.fold k (fun j hj (s : Vector U8 16 × U8) =>
        let v := s.1[j] ^^^ S[(chunk[j] ^^^ s.2).toNat]
        (s.1.set j v, v)) (c, l)).1[k] ^^^ S[(chunk[k] ^^^ (Nat.fold k (fun j hj (s : Vector U8 16 × U8) =>
        let v := s.1[j] ^^^ S[(chunk[j] ^^^ s.2).toNat]
        (s.1.set j v, v)) (c, l)).2).toNat] = Spec.Md2.chk p (16 * i + k) := by
      rw [S_eq, ih1 k (by omega), ih2, if_neg (by omega), hc k (by omega)]
      conv => rhs; rw [Spec.Md2.chk, hp k (by omega)]
      by_cases h : i = 0
      · subst h
        simp only [Nat.mul_zero, Nat.zero_add, if_pos (show k < 16 by omega), if_true]
      · rw [if_neg h, if_neg (show ¬ 16 * i + k < 16 by omega), show 16 * i - 16 + k = 16 * i + k - 16 by omega]
    rw [Nat.fold_succ]
    simp only [hv]
    refine ⟨fun j hj => ?_, by rw [if_neg (by omega)]; rfl⟩
    rw [Vector.getElem_set]
    by_cases h : k = j
    · subst h; simp
    · rw [if_neg h, ih1 j hj]
      by_cases h2 : j < k
      · rw [if_pos h2, if_pos (by omega)]
      · rw [if_neg h2, if_neg (by omega)]

/-! ## The buffer -/

theorem fill_eq (chunk : Vector U8 16) (x : Vector U8 48) : (fillLoop chunk x).toList =
    x.toList.take 16 ++ chunk.toList ++ List.zipWith (· ^^^ ·) chunk.toList (x.toList.take 16) := by
  have key : ∀ k (hk : k ≤ 16) j (hj : j < 48), (Nat.fold k (fun j hj (x : Vector U8 48) =>
      let x := x.set (j + 16) chunk[j]
      x.set (j + 32) (x[j + 16] ^^^ x[j])) x)[j] =
      if h : 16 ≤ j ∧ j < 16 + k then chunk[j - 16] else
      if h : 32 ≤ j ∧ j < 32 + k then chunk[j - 32] ^^^ x[j - 32] else x[j] := by
    intro k
    induction k with
    | zero => intro hk j hj; rw [dif_neg (by omega), dif_neg (by omega)]; rfl
    | succ k ih =>
      intro hk j hj
      rw [Nat.fold_succ]
      simp only
      rw [Vector.getElem_set]
      by_cases h1 : k + 32 = j
      · subst h1
        rw [if_pos rfl, dif_neg (by omega), dif_pos (by omega), Vector.getElem_set_self, Vector.getElem_set_ne _ _ (by omega),
          ih (by omega) k (by omega), dif_neg (by omega), dif_neg (by omega)]
        simp only [Nat.add_sub_cancel]
      · rw [if_neg h1, Vector.getElem_set]
        by_cases h2 : k + 16 = j
        · subst h2
          rw [if_pos rfl, dif_pos (by omega)]
          simp only [Nat.add_sub_cancel]
        · rw [if_neg h2, ih (by omega) j hj]
          by_cases h3 : 16 ≤ j ∧ j < 16 + k
          · rw [dif_pos h3, dif_pos (by omega)]
          · rw [dif_neg h3, dif_neg (c := 16 ≤ j ∧ j < 16 + (k + 1)) (by omega)]
            by_cases h4 : 32 ≤ j ∧ j < 32 + k
            · rw [dif_pos h4, dif_pos (by omega)]
            · rw [dif_neg h4, dif_neg (by omega)]
  apply List.ext_getElem
  · simp
  · intro j h1 h2
    have hj : j < 48 := by simpa using h1
    have := key 16 (Nat.le_refl _) j hj
    rw [Vector.getElem_toList]
    unfold fillLoop
    rw [this]
    by_cases h3 : j < 16
    · rw [dif_neg (by omega), dif_neg (by omega), List.getElem_append_left (by simp; omega),
        List.getElem_append_left (by simp; omega)]
      simp
    · by_cases h4 : j < 32
      · rw [dif_pos (by omega), List.getElem_append_left (by simp; omega), List.getElem_append_right (by simp; omega)]
        simp
      · rw [dif_neg (by omega), dif_pos (by omega), List.getElem_append_right (by simp; omega)]
        simp

theorem sweep_length (t : U8) (xs : List U8) : (Spec.Md2.sweep t xs).length = xs.length := by
  induction xs generalizing t with
  | nil => rfl
  | cons x xs ih => simp [Spec.Md2.sweep, ih]

theorem sweep_append_singleton (t : U8) (xs : List U8) (y : U8) : Spec.Md2.sweep t (xs ++ [y]) =
    Spec.Md2.sweep t xs ++ [y ^^^ Spec.Md2.S ((Spec.Md2.sweep t xs).getLastD t)] := by
  induction xs generalizing t with
  | nil => rfl
  | cons x xs ih =>
    simp only [List.cons_append, Spec.Md2.sweep, ih]
    have : ∀ (u : U8) (l : List U8), l.getLastD u = (u :: l).getLastD t := fun u l => by cases l <;> rfl
    rw [this]

theorem mix_eq (x : Vector U8 48) (t : U8) : (mixLoop (x, t)).1.toList = Spec.Md2.sweep t x.toList ∧
    (mixLoop (x, t)).2 = (Spec.Md2.sweep t x.toList).getLastD t := by
  have key : ∀ k (hk : k ≤ 48),
      let s := Nat.fold k (fun k hk (s : Vector U8 48 × U8) =>
        let v := s.1[k] ^^^ S[s.2.toNat]
        (s.1.set k v, v)) (x, t)
      s.1.toList = Spec.Md2.sweep t (x.toList.take k) ++ x.toList.drop k ∧
      s.2 = (Spec.Md2.sweep t (x.toList.take k)).getLastD t := by
    intro k
    induction k with
    | zero => intro _; exact ⟨rfl, rfl⟩
    | succ k ih =>
      intro hk
      obtain ⟨ih1, ih2⟩ := ih (by omega)
      rw [Nat.fold_succ]
      generalize Nat.fold k _ (x, t) = s at ih1 ih2 ⊢
      have hk' : k < x.toList.length := by simp; omega
      have hlen : (Spec.Md2.sweep t (x.toList.take k)).length = k := by rw [sweep_length]; simp; omega
      have hx : s.1[k] = x.toList[k] := by
        rw [← Vector.getElem_toList (h := by simp; omega)]
        have : ∀ (l : List U8) (e : s.1.toList = l) (h : k < l.length), s.1.toList[k]'(by rw [e]; exact h) = l[k] := by
          intro l e h; subst e; rfl
        rw [this _ ih1 (by simp [hlen]; omega), List.getElem_append_right (by omega)]
        simp [hlen]
      have hsw : Spec.Md2.sweep t (x.toList.take (k + 1)) =
          Spec.Md2.sweep t (x.toList.take k) ++ [s.1[k] ^^^ S[s.2.toNat]] := by
        rw [List.take_succ_eq_append_getElem hk', sweep_append_singleton, ← ih2, hx, S_eq]
      simp only
      rw [hsw]
      refine ⟨?_, by rw [List.getLastD_concat]⟩
      rw [Vector.toList_set, ih1, List.set_append_right _ _ (by omega), hlen, Nat.sub_self,
        List.drop_eq_getElem_cons hk', List.set_cons_zero]
      simp
  have := key 48 (Nat.le_refl _)
  rw [List.take_of_length_le (by simp), List.drop_eq_nil_of_le (by simp), List.append_nil] at this
  exact this

theorem rounds_eq (x : Vector U8 48) : (rounds x).toList = (Spec.Md2.rounds x.toList 18).1 := by
  have key : ∀ k, (Nat.fold k (fun j _ (s : Vector U8 48 × U8) =>
      let s := mixLoop s
      (s.1, s.2 + BitVec.ofNat 8 j)) (x, 0#8)).1.toList = (Spec.Md2.rounds x.toList k).1 ∧
      (Nat.fold k (fun j _ (s : Vector U8 48 × U8) =>
      let s := mixLoop s
      (s.1, s.2 + BitVec.ofNat 8 j)) (x, 0#8)).2 = (Spec.Md2.rounds x.toList k).2 := by
    intro k
    induction k with
    | zero => exact ⟨rfl, rfl⟩
    | succ k ih =>
      obtain ⟨ih1, ih2⟩ := ih
      rw [Nat.fold_succ]
      generalize Nat.fold k _ (x, 0#8) = s at ih1 ih2 ⊢
      obtain ⟨h1, h2⟩ := mix_eq s.1 s.2
      simp only [Spec.Md2.rounds, ← ih1, ← ih2]
      exact ⟨h1, by rw [← h2]⟩
  exact (key 18).1

/-! ## The hasher -/

/-- The state after `i` blocks of the stream `q`, whose first blocks are those of `p`. -/
structure Inv (p q : List U8) (i : Nat) (h : Hasher) : Prop where
  chunk : h.chunk = []
  checksum : ∀ j (_ : j < 16), h.checksum[j] = if i = 0 then 0#8 else Spec.Md2.chk p (16 * i - 16 + j)
  l : h.l = if i = 0 then 0#8 else Spec.Md2.chk p (16 * i - 1)
  x : h.x.toList.take 16 = Spec.Md2.state q i

theorem process_inv (p q : List U8) (i : Nat) (h : Hasher) (b : Vector U8 16) (hi : Inv p q i h)
    (hq : (q.drop (16 * i)).take 16 = b.toList) (hp : ∀ j (_ : j < 16), p.getD (16 * i + j) 0#8 = b[j]) :
    ∃ h', { h with chunk := b.toList }.processChunk = .ok h' ∧ Inv p q (i + 1) h' := by
  unfold Hasher.processChunk
  rw [dif_pos (by simp)]
  refine ⟨_, rfl, ?_⟩
  have hb : (⟨(b.toList.take 16).toArray, by simp⟩ : Vector U8 16) = b := by
    apply Vector.toList_inj.1
    show b.toList.take 16 = b.toList
    rw [List.take_of_length_le (by simp)]
  simp only [hb]
  obtain ⟨c1, c2⟩ := checksum_steps p b i h.checksum h.l hp hi.checksum hi.l 16 (Nat.le_refl _)
  constructor
  · rfl
  · intro j hj
    have := c1 j hj
    rw [if_pos hj] at this
    rw [if_neg (by omega), show 16 * (i + 1) - 16 + j = 16 * i + j by omega]
    exact this
  · rw [if_neg (by omega)] at c2
    rw [if_neg (by omega), show 16 * (i + 1) - 1 = 16 * i + 16 - 1 by omega]
    exact c2
  · simp only [rounds_eq, fill_eq, hi.x, Spec.Md2.state, hq]

theorem consume_short (l : List U8) (h : Hasher) (hl : h.chunk.length + l.length < 16) :
    l.foldlM Hasher.consume h = .ok { h with chunk := h.chunk ++ l } := by
  induction l generalizing h with
  | nil => simp [pure, Except.pure]
  | cons b l ih =>
    simp only [List.length_cons] at hl
    rw [List.foldlM_cons]
    have : h.consume b = .ok { h with chunk := h.chunk ++ [b] } := by
      unfold Hasher.consume
      simp only
      rw [if_neg (by simp; omega)]
    rw [this]
    show l.foldlM Hasher.consume _ = _
    rw [ih _ (by simp; omega)]
    simp

theorem consume_block (b : Vector U8 16) (h : Hasher) (hc : h.chunk = []) :
    b.toList.foldlM Hasher.consume h = { h with chunk := b.toList }.processChunk := by
  have hsplit : b.toList = b.toList.take 15 ++ [b[15]] := by
    have h16 : b.toList = b.toList.take 16 := by rw [List.take_of_length_le (by simp)]
    conv => lhs; rw [h16]
    rw [List.take_succ_eq_append_getElem (by simp)]
    simp
  conv => lhs; rw [hsplit]
  rw [List.foldlM_append, consume_short _ _ (by simp [hc])]
  simp only [bind, Except.bind, List.foldlM_cons, List.foldlM_nil, hc, List.nil_append]
  unfold Hasher.consume
  simp only
  rw [if_pos (by simp), ← hsplit]
  cases ({ h with chunk := b.toList } : Hasher).processChunk <;> rfl

theorem take_drop_block (bs : List (Vector U8 16)) (tail : List U8) (i : Nat) (hi : i < bs.length) :
    ((bs.flatMap Vector.toList ++ tail).drop (16 * i)).take 16 = bs[i].toList := by
  apply List.ext_getElem
  · simp only [List.length_take, List.length_drop, List.length_append, length_flatMap_toList, Vector.length_toList]
    omega
  · intro j h1 h2
    have hj : j < 16 := by simpa using h2
    rw [List.getElem_take, List.getElem_drop, Vector.getElem_toList]
    have hlen : i * 16 + j < (bs.flatMap Vector.toList ++ tail).length := by
      simp only [List.length_append, length_flatMap_toList]; omega
    have := getElem_flatMap_toList bs tail i j hi hj hlen
    simpa [Nat.mul_comm] using this

theorem getD_block (bs : List (Vector U8 16)) (i : Nat) (hi : i < bs.length) (j : Nat) (hj : j < 16) :
    (bs.flatMap Vector.toList).getD (16 * i + j) 0#8 = bs[i][j] := by
  have hlt := Sha.blocks_lt bs i j hi hj
  rw [List.getD_eq_getElem?_getD, List.getElem?_eq_getElem hlt, Sha.getElem_blocks bs i j hi hj]
  rfl

theorem consume_blocks (ps : List (Vector U8 16)) (tail : List U8) (n i : Nat) (hn : i + n ≤ ps.length) (h : Hasher)
    (hi : Inv (ps.flatMap Vector.toList) (ps.flatMap Vector.toList ++ tail) i h) :
    ∃ h', (((ps.drop i).take n).flatMap Vector.toList).foldlM Hasher.consume h = .ok h' ∧
      Inv (ps.flatMap Vector.toList) (ps.flatMap Vector.toList ++ tail) (i + n) h' := by
  induction n generalizing i h with
  | zero => exact ⟨h, by simp [pure, Except.pure], hi⟩
  | succ n ih =>
    have hlt : i < ps.length := by omega
    obtain ⟨h1, e1, i1⟩ := process_inv _ _ i h ps[i] hi (take_drop_block ps tail i hlt)
      (fun j hj => getD_block ps i hlt j hj)
    obtain ⟨h2, e2, i2⟩ := ih (i + 1) (by omega) h1 i1
    refine ⟨h2, ?_, by rw [show i + (n + 1) = i + 1 + n by omega]; exact i2⟩
    rw [List.drop_eq_getElem_cons hlt, List.take_succ_cons, List.flatMap_cons, List.foldlM_append,
      consume_block _ _ hi.chunk, e1]
    exact e2

theorem inv_new (p q : List U8) : Inv p q 0 Hasher.new := by
  constructor
  · rfl
  · intro j hj; simp [Hasher.new]
  · rfl
  · rfl

theorem getD_ge {p : List U8} {n : Nat} (h : p.length ≤ n) : p.getD n 0#8 = 0#8 := by
  rw [List.getD_eq_getElem?_getD, List.getElem?_eq_none h]; rfl

theorem hash_eq (m : List U8) : ∃ v, hash m = .ok v ∧ v.toList = Spec.Md2.md2 m := by
  obtain ⟨bs, tail, e, ht, hbl⟩ := exists_chunks (n := 16) (by omega) m
  have htl : tail.length < 16 := by rw [ht]; exact Nat.mod_lt _ (by omega)
  -- the last block of the padded message
  obtain ⟨last, hlast⟩ : ∃ last : Vector U8 16, last.toList =
      tail ++ List.replicate (16 - tail.length) (BitVec.ofNat 8 (16 - tail.length)) :=
    ⟨⟨(tail ++ List.replicate (16 - tail.length) (BitVec.ofNat 8 (16 - tail.length))).toArray, by simp; omega⟩, rfl⟩
  have hpad : Spec.Md2.pad m = (bs ++ [last]).flatMap Vector.toList := by
    unfold Spec.Md2.pad
    rw [List.flatMap_append, List.flatMap_singleton, hlast, ← ht]
    conv => lhs; lhs; rw [e]
    simp
  obtain ⟨p, hp⟩ : ∃ p, p = Spec.Md2.pad m := ⟨_, rfl⟩
  have hplen : p.length = 16 * (bs.length + 1) := by
    rw [hp, hpad, length_flatMap_toList]; simp; omega
  obtain ⟨q, hq⟩ : ∃ q, q = p ++ Spec.Md2.checksum p := ⟨_, rfl⟩
  have hpq : (bs ++ [last]).flatMap Vector.toList = p := by rw [hp, hpad]
  have hblen : (bs ++ [last]).length = bs.length + 1 := by simp
  -- the full blocks
  obtain ⟨h1, e1, i1⟩ := consume_blocks (bs ++ [last]) (Spec.Md2.checksum p) bs.length 0 (by simp) Hasher.new (inv_new _ _)
  rw [List.drop_zero, List.take_left' rfl] at e1
  rw [hpq, ← hq, Nat.zero_add] at i1
  -- the last block
  have hidx : (bs ++ [last])[bs.length]'(by simp) = last := by simp
  have hlastq : (q.drop (16 * bs.length)).take 16 = last.toList := by
    have := take_drop_block (bs ++ [last]) (Spec.Md2.checksum p) bs.length (by simp)
    rw [hpq, ← hq, hidx] at this
    exact this
  obtain ⟨h2, e2, i2⟩ := process_inv p q bs.length h1 last i1 hlastq (fun j hj => by
    have := getD_block (bs ++ [last]) bs.length (by simp) j hj
    rw [hpq] at this
    rw [this]
    congr 1)
  -- the checksum block
  have hck : h2.checksum.toList = Spec.Md2.checksum p := by
    apply List.ext_getElem
    · simp [Spec.Md2.checksum]
    · intro j h3 h4
      have hj : j < 16 := by simpa using h3
      have := i2.checksum j hj
      rw [if_neg (by omega)] at this
      rw [Vector.getElem_toList, this]
      simp only [Spec.Md2.checksum, List.getElem_map, List.getElem_range, hplen]
  have hckq : (q.drop (16 * (bs.length + 1))).take 16 = h2.checksum.toList := by
    rw [hck, hq, List.drop_left' hplen, List.take_of_length_le (by simp [Spec.Md2.checksum])]
  obtain ⟨h3, e3, hx3⟩ : ∃ h3, { h2 with chunk := h2.checksum.toList }.processChunk = .ok h3 ∧
      h3.x.toList.take 16 = Spec.Md2.state q (bs.length + 2) := by
    unfold Hasher.processChunk
    rw [dif_pos (by simp)]
    refine ⟨_, rfl, ?_⟩
    have hb : (⟨(h2.checksum.toList.take 16).toArray, by simp⟩ : Vector U8 16) = h2.checksum := by
      apply Vector.toList_inj.1
      show h2.checksum.toList.take 16 = h2.checksum.toList
      rw [List.take_of_length_le (by simp)]
    simp only [hb, rounds_eq, fill_eq, i2.x]
    rw [show bs.length + 2 = bs.length + 1 + 1 by omega]
    conv => rhs; rw [Spec.Md2.state]
    simp only [hckq]
  have hqlen : q.length / 16 = bs.length + 2 := by
    rw [hq, List.length_append, hplen]
    simp only [Spec.Md2.checksum, List.length_map, List.length_range]
    omega
  -- the output
  refine ⟨Vector.ofFn fun j : Fin 16 => h3.x[j.val], ?_, ?_⟩
  · unfold hash
    have e0 : m.foldlM Hasher.consume Hasher.new = .ok { h1 with chunk := tail } := by
      conv => lhs; rw [e]
      rw [List.foldlM_append, e1]
      show tail.foldlM Hasher.consume h1 = _
      rw [consume_short _ _ (by rw [i1.chunk]; simpa using htl), i1.chunk]
      rfl
    rw [e0]
    show Hasher.finish _ = _
    unfold Hasher.finish
    have hsub : subU 16 (tail.length % 256) = .ok (16 - tail.length) := by
      unfold subU
      rw [Nat.mod_eq_of_lt (by omega), if_pos (by omega)]
    have e2' : ({ h1 with chunk := tail ++ List.replicate (16 - tail.length) (BitVec.ofNat 8 (16 - tail.length)) } :
        Hasher).processChunk = .ok h2 := by rw [← hlast]; exact e2
    have e3' : ({ h2 with chunk := h2.chunk ++ h2.checksum.toList } : Hasher).processChunk = .ok h3 := by
      rw [i2.chunk]; exact e3
    simp only [hsub, e2', e3', bind, Except.bind]
  · have hmd : Spec.Md2.md2 m = Spec.Md2.state q (bs.length + 2) := by
      unfold Spec.Md2.md2
      simp only
      rw [← hp, ← hq, hqlen]
    rw [hmd, ← hx3]
    apply List.ext_getElem
    · simp
    · intro j h4 h5; simp

end Verif.Model.Md2
