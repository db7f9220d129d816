import Verif.Model.Md2Trace
import Verif.Props.Md

/-! # C136: what the table lookups of MD2 reveal -/

namespace Verif.Props
open Verif Verif.Model
open _root_.Verif.Model.Md2Trace (checksumStepT checksumLoopT mixLoopT roundsT processChunkT consumeT finishT hashT)

/-! ## The program of someone who sees the places -/

/-- What is known of a hash computation from the places: the checksum, its last byte, the number of the lookup within the
block, and the bytes that were hashed. -/
structure Md2Tap where
  C : Nat → U8
  l : U8
  pos : Nat
  out : List U8

/-- A place is seen. For a block there are 880 lookups, and the first 16 are those of the checksum. -/
def Md2Tap.see (g : Md2Tap) (p : U8) : Md2Tap :=
  if g.pos < 16 then
    let v := g.C g.pos ^^^ Md2.S[p.toNat]
    ⟨fun j => if j = g.pos then v else g.C j, v, g.pos + 1, g.out ++ [p ^^^ g.l]⟩
  else ⟨g.C, g.l, (g.pos + 1) % 880, g.out⟩

/-- Nothing is seen yet. -/
def Md2Tap.start : Md2Tap := ⟨fun _ => 0#8, 0#8, 0, []⟩

/-- The message: all bytes that were hashed, without the checksum (16 bytes) and the padding (as many bytes as the last of
them says). -/
def md2Message (places : List U8) : List U8 :=
  let p := (places.foldl Md2Tap.see Md2Tap.start).out
  let p := p.take (p.length - 16)
  p.take (p.length - (p.getLastD 0#8).toNat)

/-! ## Proofs -/

theorem fold_inv {α : Type} (n : Nat) (f : (i : Nat) → i < n → α → α) (x : α) (P : Nat → α → Prop) (h0 : P 0 x)
    (hs : ∀ i (hi : i < n) y, P i y → P (i + 1) (f i hi y)) : P n (Nat.fold n f x) := by
  induction n with
  | zero => exact h0
  | succ n ih =>
    rw [Nat.fold_succ]
    exact hs n (by omega) _ (ih _ (fun i hi y => hs i (by omega) y))

theorem checksumT_fst (chunk : Vector U8 16) (s : (Vector U8 16 × U8) × List U8) :
    (checksumLoopT chunk s).1 = Md2.checksumLoop chunk s.1 := by
  have key : ∀ k (hk : k ≤ 16), (Nat.fold k (fun j hj s => checksumStepT chunk j (by omega) s) s).1 =
      Nat.fold k (fun j hj (s : Vector U8 16 × U8) =>
        let v := s.1[j] ^^^ Md2.S[(chunk[j] ^^^ s.2).toNat]
        (s.1.set j v, v)) s.1 := by
    intro k hk
    induction k with
    | zero => rfl
    | succ k ih =>
      rw [Nat.fold_succ, Nat.fold_succ, ← ih (by omega)]
      rfl
  exact key 16 (Nat.le_refl _)

theorem mixT_fst (s : (Vector U8 48 × U8) × List U8) :
    (mixLoopT s).1 = Md2.mixLoop s.1 ∧ ∃ u, u.length = 48 ∧ (mixLoopT s).2 = s.2 ++ u := by
  have key : ∀ k (hk : k ≤ 48), (Nat.fold k (fun k hk (s : (Vector U8 48 × U8) × List U8) =>
      let v := s.1.1[k] ^^^ Md2.S[s.1.2.toNat]
      ((s.1.1.set k v, v), s.2 ++ [s.1.2])) s).1 = Nat.fold k (fun k hk (s : Vector U8 48 × U8) =>
      let v := s.1[k] ^^^ Md2.S[s.2.toNat]
      (s.1.set k v, v)) s.1 ∧ ∃ u, u.length = k ∧ (Nat.fold k (fun k hk (s : (Vector U8 48 × U8) × List U8) =>
      let v := s.1.1[k] ^^^ Md2.S[s.1.2.toNat]
      ((s.1.1.set k v, v), s.2 ++ [s.1.2])) s).2 = s.2 ++ u := by
    intro k hk
    induction k with
    | zero => exact ⟨rfl, [], rfl, by simp⟩
    | succ k ih =>
      obtain ⟨a, u, hu, b⟩ := ih (by omega)
      rw [Nat.fold_succ, Nat.fold_succ]
      simp only [a, b]
      exact ⟨trivial, u ++ [_], by simp [hu], by rw [List.append_assoc]⟩
  exact key 48 (Nat.le_refl _)

theorem roundsT_fst (x : Vector U8 48) (places : List U8) :
    (roundsT x places).1 = Md2.rounds x ∧ ∃ u, u.length = 864 ∧ (roundsT x places).2 = places ++ u := by
  have key : ∀ k, (Nat.fold k (fun j _ (s : (Vector U8 48 × U8) × List U8) =>
      let s := mixLoopT s
      ((s.1.1, s.1.2 + BitVec.ofNat 8 j), s.2)) ((x, 0#8), places)).1 = Nat.fold k (fun j _ (s : Vector U8 48 × U8) =>
      let s := Md2.mixLoop s
      (s.1, s.2 + BitVec.ofNat 8 j)) (x, 0#8) ∧ ∃ u, u.length = 48 * k ∧
      (Nat.fold k (fun j _ (s : (Vector U8 48 × U8) × List U8) =>
      let s := mixLoopT s
      ((s.1.1, s.1.2 + BitVec.ofNat 8 j), s.2)) ((x, 0#8), places)).2 = places ++ u := by
    intro k
    induction k with
    | zero => exact ⟨rfl, [], rfl, by simp⟩
    | succ k ih =>
      obtain ⟨a, u, hu, b⟩ := ih
      rw [Nat.fold_succ, Nat.fold_succ]
      generalize Nat.fold k (fun j _ (s : (Vector U8 48 × U8) × List U8) =>
        let s := mixLoopT s
        ((s.1.1, s.1.2 + BitVec.ofNat 8 j), s.2)) ((x, 0#8), places) = s at a b
      obtain ⟨c, w, hw, d⟩ := mixT_fst s
      simp only [c, d, a, b]
      exact ⟨trivial, u ++ w, by simp [hu, hw]; omega, by rw [List.append_assoc]⟩
  obtain ⟨a, b⟩ := key 18
  unfold roundsT Md2.rounds
  refine ⟨?_, ?_⟩
  · simp only
    rw [a]
  · simp only
    exact b

theorem processT_fst (s : Md2.Hasher × List U8) : (processChunkT s).map Prod.fst = s.1.processChunk := by
  unfold processChunkT Md2.Hasher.processChunk
  by_cases hl : 16 ≤ s.1.chunk.length
  · rw [dif_pos hl, dif_pos hl]
    simp only [Except.map, checksumT_fst, (roundsT_fst _ _).1]
  · rw [dif_neg hl, dif_neg hl]; rfl

theorem consumeT_fst (m : List U8) (s : Md2.Hasher × List U8) :
    (m.foldlM consumeT s).map Prod.fst = m.foldlM Md2.Hasher.consume s.1 := by
  induction m generalizing s with
  | nil => rfl
  | cons b m ih =>
    rw [List.foldlM_cons, List.foldlM_cons]
    have h1 : (consumeT s b).map Prod.fst = s.1.consume b := by
      unfold consumeT Md2.Hasher.consume
      simp only
      split
      · exact processT_fst _
      · rfl
    rw [← h1]
    cases consumeT s b with
    | error e => rfl
    | ok s' => exact ih s'

/-- C136: the record changes nothing: without it the result is that of the hash function. -/
theorem C136_same (m : List U8) : (hashT m).map Prod.fst = Md2.hash m := by
  unfold hashT Md2.hash
  rw [← consumeT_fst m (Md2.Hasher.new, [])]
  cases m.foldlM consumeT (Md2.Hasher.new, []) with
  | error e => rfl
  | ok s =>
    show (finishT s).map Prod.fst = s.1.finish
    unfold finishT Md2.Hasher.finish
    simp only [bind, Except.bind]
    cases subU 16 (s.1.chunk.length % 256) with
    | error e => rfl
    | ok pad =>
      simp only
      rw [← processT_fst ({ s.1 with chunk := s.1.chunk ++ List.replicate pad (BitVec.ofNat 8 pad) }, s.2)]
      cases processChunkT ({ s.1 with chunk := s.1.chunk ++ List.replicate pad (BitVec.ofNat 8 pad) }, s.2) with
      | error e => rfl
      | ok s1 =>
        simp only [Except.map]
        rw [← processT_fst ({ s1.1 with chunk := s1.1.chunk ++ s1.1.checksum.toList }, s1.2)]
        cases processChunkT ({ s1.1 with chunk := s1.1.chunk ++ s1.1.checksum.toList }, s1.2) with
        | error e => rfl
        | ok s2 => rfl

/-- The observer knows the checksum, and the bytes hashed so far are `done`. -/
structure Md2Known (places : List U8) (checksum : Vector U8 16) (l : U8) (done : List U8) : Prop where
  C : ∀ j (h : j < 16), (places.foldl Md2Tap.see Md2Tap.start).C j = checksum[j]
  l : (places.foldl Md2Tap.see Md2Tap.start).l = l
  pos : (places.foldl Md2Tap.see Md2Tap.start).pos = 0
  out : (places.foldl Md2Tap.see Md2Tap.start).out = done
  count : places.length = 55 * done.length

theorem skip_places (u : List U8) (g : Md2Tap) (h : 16 ≤ g.pos) (hu : g.pos + u.length = 880) (hne : u ≠ []) :
    u.foldl Md2Tap.see g = ⟨g.C, g.l, 0, g.out⟩ := by
  induction u generalizing g with
  | nil => exact absurd rfl hne
  | cons p u ih =>
    simp only [List.length_cons] at hu
    rw [List.foldl_cons]
    have e : g.see p = ⟨g.C, g.l, (g.pos + 1) % 880, g.out⟩ := by
      unfold Md2Tap.see
      rw [if_neg (by omega)]
    rw [e]
    by_cases hu0 : u = []
    · subst hu0
      simp only [List.length_nil] at hu
      rw [show g.pos + 1 = 880 by omega]
      rfl
    · have : u.length ≠ 0 := by simpa using hu0
      rw [ih _ (by simp only; omega) (by simp only; omega) hu0]

/-- The observer within the checksum loop. -/
def Md2Within (b : Vector U8 16) (n : Nat) (done : List U8) (k : Nat) (s : (Vector U8 16 × U8) × List U8) : Prop :=
  let g := s.2.foldl Md2Tap.see Md2Tap.start
  (∀ j (h : j < 16), g.C j = s.1.1[j]) ∧ g.l = s.1.2 ∧ g.pos = k ∧ g.out = done ++ b.toList.take k ∧ s.2.length = n + k

theorem within_step (b : Vector U8 16) (n : Nat) (done : List U8) (k : Nat) (hk : k < 16)
    (s : (Vector U8 16 × U8) × List U8) (h : Md2Within b n done k s) :
    Md2Within b n done (k + 1) (checksumStepT b k hk s) := by
  obtain ⟨i1, i2, i3, i4, i5⟩ := h
  unfold Md2Within
  simp only [checksumStepT, List.foldl_append, List.foldl_cons, List.foldl_nil]
  generalize s.2.foldl Md2Tap.see Md2Tap.start = g at i1 i2 i3 i4
  have hsee : g.see (b[k] ^^^ s.1.2) = ⟨fun j => if j = k then s.1.1[k] ^^^ Md2.S[(b[k] ^^^ s.1.2).toNat] else g.C j,
      s.1.1[k] ^^^ Md2.S[(b[k] ^^^ s.1.2).toNat], k + 1, g.out ++ [b[k]]⟩ := by
    unfold Md2Tap.see
    rw [if_pos (by omega)]
    simp only [i3, i2, i1 k (by omega), BitVec.xor_assoc, BitVec.xor_self, BitVec.xor_zero]
  rw [hsee]
  refine ⟨fun j hj => ?_, rfl, rfl, ?_, ?_⟩
  · simp only [Vector.getElem_set]
    by_cases e : j = k
    · subst e; simp
    · rw [if_neg e, if_neg (fun h => e h.symm), i1 j hj]
  · simp only [i4]
    rw [List.append_assoc, List.take_succ_eq_append_getElem (by simp; omega), Vector.getElem_toList]
  · simp [i5]; omega

/-- The 16 lookups of the checksum. -/
theorem checksum_known (h : Md2.Hasher) (places done : List U8) (hk : Md2Known places h.checksum h.l done)
    (b : Vector U8 16) :
    Md2Within b places.length done 16 (checksumLoopT b ((h.checksum, h.l), places)) :=
  fold_inv 16 _ _ (Md2Within b places.length done) ⟨hk.C, hk.l, hk.pos, by simp [hk.out], rfl⟩
    (fun i hi y hy => within_step b _ done i hi y hy)

attribute [local irreducible] checksumLoopT roundsT

theorem process_known (h : Md2.Hasher) (places done : List U8) (hk : Md2Known places h.checksum h.l done)
    (b : Vector U8 16) (hb : h.chunk = b.toList) :
    ∃ h' places', processChunkT (h, places) = .ok (h', places') ∧ h'.chunk = [] ∧
      Md2Known places' h'.checksum h'.l (done ++ b.toList) := by
  unfold processChunkT
  have hl : 16 ≤ h.chunk.length := by rw [hb]; simp
  rw [dif_pos hl]
  have hchunk : (⟨(h.chunk.take 16).toArray, by simp [hl]⟩ : Vector U8 16) = b := by
    apply Vector.toList_inj.1
    show h.chunk.take 16 = b.toList
    rw [hb, List.take_of_length_le (by simp)]
  simp only [hchunk]
  refine ⟨_, _, rfl, rfl, ?_⟩
  obtain ⟨a1, a2, a3, a4, a5⟩ := checksum_known h places done hk b
  obtain ⟨_, u, hu, e⟩ := roundsT_fst (Md2.fillLoop b h.x) (checksumLoopT b ((h.checksum, h.l), places)).2
  have hskip := skip_places u ((checksumLoopT b ((h.checksum, h.l), places)).2.foldl Md2Tap.see Md2Tap.start)
    (by rw [a3]) (by rw [a3, hu]) (by intro h; simp [h] at hu)
  constructor
  · rw [e, List.foldl_append, hskip]
    exact a1
  · rw [e, List.foldl_append, hskip]
    exact a2
  · rw [e, List.foldl_append, hskip]
  · rw [e, List.foldl_append, hskip]
    exact a4.trans (by rw [List.take_of_length_le (by simp)])
  · rw [e, List.length_append, hu]
    rw [a5, hk.count]
    simp
    omega

/-- Between the bytes: what was hashed and what waits in the chunk are together the bytes given so far. -/
def Md2Run (given : List U8) (s : Md2.Hasher × List U8) : Prop :=
  ∃ done, Md2Known s.2 s.1.checksum s.1.l done ∧ done ++ s.1.chunk = given ∧ s.1.chunk.length < 16 ∧ done.length % 16 = 0

theorem consume_run (m given : List U8) (s : Md2.Hasher × List U8) (h : Md2Run given s) :
    ∃ s', m.foldlM consumeT s = .ok s' ∧ Md2Run (given ++ m) s' := by
  induction m generalizing given s with
  | nil => exact ⟨s, rfl, by simpa using h⟩
  | cons b m ih =>
    obtain ⟨done, h1, h2, h3, h4⟩ := h
    have hstep : ∃ s', consumeT s b = .ok s' ∧ Md2Run (given ++ [b]) s' := by
      unfold consumeT
      simp only
      by_cases h16 : (s.1.chunk ++ [b]).length = 16
      · rw [if_pos h16]
        obtain ⟨h', p', e, hc, hk⟩ := process_known { s.1 with chunk := s.1.chunk ++ [b] } s.2 done h1
          ⟨(s.1.chunk ++ [b]).toArray, by simpa using h16⟩ rfl
        refine ⟨_, e, done ++ (s.1.chunk ++ [b]), hk, ?_, ?_, ?_⟩
        · rw [hc, ← h2]; simp
        · rw [hc]; simp
        · rw [List.length_append, h16]; omega
      · rw [if_neg h16]
        have : (s.1.chunk ++ [b]).length = s.1.chunk.length + 1 := by simp
        exact ⟨_, rfl, done, h1, by simp only; rw [← List.append_assoc, h2], by simp only; omega, h4⟩
    obtain ⟨s1, e1, r1⟩ := hstep
    obtain ⟨s2, e2, r2⟩ := ih (given ++ [b]) s1 r1
    refine ⟨s2, ?_, by simpa using r2⟩
    rw [List.foldlM_cons, e1]
    exact e2

/-- C136: there are 880 lookups for each block of the padded message and of the checksum, and the bytes computed from the
places are the padded message and the checksum. -/
theorem C136_bytes (m : List U8) : ∃ v places c, hashT m = .ok (v, places) ∧
    places.length = 880 * (m.length / 16 + 2) ∧ c.length = 16 ∧
    (places.foldl Md2Tap.see Md2Tap.start).out = Spec.Md2.pad m ++ c := by
  obtain ⟨s, e, done, hk, hd, hlt, h16⟩ := consume_run m [] (Md2.Hasher.new, [])
    ⟨[], ⟨fun j hj => by simp [Md2Tap.start, Md2.Hasher.new], rfl, rfl, rfl, rfl⟩, rfl, by simp [Md2.Hasher.new], rfl⟩
  rw [List.nil_append] at hd
  have hlen : m.length = done.length + s.1.chunk.length := by rw [← hd]; simp
  have hmod : m.length % 16 = s.1.chunk.length := by omega
  have hsub : subU 16 (s.1.chunk.length % 256) = .ok (16 - s.1.chunk.length) := by
    unfold subU
    rw [Nat.mod_eq_of_lt (by omega), if_pos (by omega)]
  obtain ⟨h1, p1, e1, c1, k1⟩ := process_known
    { s.1 with chunk := s.1.chunk ++ List.replicate (16 - s.1.chunk.length) (BitVec.ofNat 8 (16 - s.1.chunk.length)) }
    s.2 done hk
    ⟨(s.1.chunk ++ List.replicate (16 - s.1.chunk.length) (BitVec.ofNat 8 (16 - s.1.chunk.length))).toArray,
      by simp; omega⟩ rfl
  have hpad : done ++ (s.1.chunk ++ List.replicate (16 - s.1.chunk.length) (BitVec.ofNat 8 (16 - s.1.chunk.length))) =
      Spec.Md2.pad m := by
    unfold Spec.Md2.pad
    rw [hmod, ← List.append_assoc, hd]
  obtain ⟨h2, p2, e2, c2, k2⟩ := process_known { h1 with chunk := h1.chunk ++ h1.checksum.toList } p1 _ k1
    h1.checksum (by simp only [c1, List.nil_append])
  refine ⟨Vector.ofFn fun j : Fin 16 => h2.x[j.val], p2, h1.checksum.toList, ?_, ?_, by simp, ?_⟩
  · unfold hashT
    rw [e]
    show finishT s = _
    unfold finishT
    simp only [hsub, e1, e2, bind, Except.bind]
  · rw [k2.count]
    simp
    omega
  · rw [k2.out]
    congr 1

/-- C136: so the places are the message to anyone who knows the algorithm: it is found again by a program. -/
theorem C136_message (m : List U8) (v : Vector U8 16) (places : List U8) (h : hashT m = .ok (v, places)) :
    md2Message places = m := by
  obtain ⟨v', p', c, e, _, hc, ho⟩ := C136_bytes m
  rw [h] at e
  cases e
  unfold md2Message
  simp only
  rw [ho]
  have h16 := Nat.mod_lt m.length (show 0 < 16 by omega)
  have h1 : (Spec.Md2.pad m ++ c).take ((Spec.Md2.pad m ++ c).length - 16) = Spec.Md2.pad m := by
    rw [List.length_append, hc, Nat.add_sub_cancel, List.take_left' rfl]
  rw [h1]
  have hlast : (Spec.Md2.pad m).getLastD 0#8 = BitVec.ofNat 8 (16 - m.length % 16) := by
    unfold Spec.Md2.pad
    obtain ⟨n, hn⟩ : ∃ n, 16 - m.length % 16 = n + 1 := ⟨15 - m.length % 16, by omega⟩
    rw [hn, List.replicate_succ', ← List.append_assoc, List.getLastD_concat]
  rw [hlast, BitVec.toNat_ofNat, Nat.mod_eq_of_lt (by omega)]
  unfold Spec.Md2.pad
  rw [List.length_append, List.length_replicate, Nat.add_sub_cancel, List.take_left' rfl]

/-- C136: in particular different messages use different places. -/
theorem C136_injective (m m' : List U8) (v v' : Vector U8 16) (places : List U8) (h : hashT m = .ok (v, places))
    (h' : hashT m' = .ok (v', places)) : m = m' := by
  rw [← C136_message m v places h, C136_message m' v' places h']

set_option maxRecDepth 20000 in
/-- The first places for the message "abc": the letters in turn, each with the last checksum byte. -/
example : (hashT [97#8, 98#8, 99#8]).toOption.map (fun r => r.2.take 3) =
    some [97#8, 98#8 ^^^ Md2.S[97], 99#8 ^^^ Md2.S[(98#8 ^^^ Md2.S[97]).toNat]] := by decide +kernel
example : ∃ v places, hashT [97#8, 98#8, 99#8] = .ok (v, places) ∧ places.length = 1760 ∧
    md2Message places = [97#8, 98#8, 99#8] := by
  obtain ⟨v, places, _, h, hl, _⟩ := C136_bytes [97#8, 98#8, 99#8]
  exact ⟨v, places, h, hl, C136_message _ v places h⟩
example : ∀ v places, hashT [97#8, 98#8, 99#8] = .ok (v, places) → md2Message places = [97#8, 98#8, 99#8] :=
  fun v places h => C136_message _ v places h
example : ∀ v v' places, hashT [97#8] = .ok (v, places) → hashT [98#8] = .ok (v', places) → False :=
  fun v v' places h h' => absurd (C136_injective _ _ v v' places h h') (by decide)

end Verif.Props
