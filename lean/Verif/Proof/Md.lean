import Verif.Proof.Md5Const
import Verif.Proof.Sha

/-! # The MD4/MD5 hasher and their compression functions -/

namespace Verif.Model.Md
open Verif
open Verif.Spec.Md (Four)

/-- The 16 words of a block. -/
def blockWords (b : Vector U8 64) : Vector U32 16 :=
  Vector.ofFn fun j : Fin 16 => leU32 b[j.val * 4] b[j.val * 4 + 1] b[j.val * 4 + 2] b[j.val * 4 + 3]

/-- What one block does to the chaining variables. -/
def comp (P : Vector U32 16 → Abcd → Abcd) (s : Abcd) (b : Vector U8 64) : Abcd :=
  let r := P (blockWords b) s
  ⟨s.a + r.a, s.b + r.b, s.c + r.c, s.d + r.d⟩

theorem blockFromSlice_toList (b : Vector U8 64) : blockFromSlice b.toList = .ok (blockWords b) := by
  unfold blockFromSlice blockWords
  rw [dif_pos (by simp)]
  simp only [Vector.getElem_toList]

section
variable {process : Vector U32 16 → Abcd → R Abcd} {P : Vector U32 16 → Abcd → Abcd}

theorem consume_short (l : List U8) (h : Hasher) (hl : h.unprocessed.length + l.length < 64)
    (hb : h.bytesConsumed + l.length < 2 ^ 64) :
    l.foldlM (Hasher.consume process) h = .ok ⟨h.unprocessed ++ l, h.bytesConsumed + l.length, h.s⟩ := by
  induction l generalizing h with
  | nil => simp [pure, Except.pure]
  | cons b l ih =>
    simp only [List.length_cons] at hl hb
    rw [List.foldlM_cons]
    have : h.consume process b = .ok ⟨h.unprocessed ++ [b], h.bytesConsumed + 1, h.s⟩ := by
      unfold Hasher.consume
      rw [if_pos (by omega)]
      simp only
      rw [if_neg (by simp; omega)]
    rw [this]
    show l.foldlM (Hasher.consume process) _ = _
    rw [ih _ (by simp; omega) (by simp; omega)]
    simp; omega

theorem consume_block (hP : ∀ x s, process x s = .ok (P x s)) (b : Vector U8 64) (n : Nat) (s : Abcd)
    (hb : n + 64 < 2 ^ 64) :
    b.toList.foldlM (Hasher.consume process) ⟨[], n, s⟩ = .ok ⟨[], n + 64, comp P s b⟩ := by
  have hsplit : b.toList = b.toList.take 63 ++ [b[63]] := by
    have h64 : b.toList = b.toList.take 64 := by rw [List.take_of_length_le (by simp)]
    conv => lhs; rw [h64]
    rw [List.take_succ_eq_append_getElem (by simp)]
    simp
  have hlen : (b.toList.take 63).length = 63 := by simp
  rw [hsplit, List.foldlM_append, consume_short _ _ (by simp) (by simp; omega)]
  simp only [bind, Except.bind, List.foldlM_cons, List.foldlM_nil, List.nil_append, hlen]
  have : Hasher.consume process ⟨b.toList.take 63, n + 63, s⟩ b[63] = .ok ⟨[], n + 64, comp P s b⟩ := by
    unfold Hasher.consume
    rw [if_pos (by simp only; omega)]
    simp only
    rw [if_pos (by simp), ← hsplit]
    unfold Hasher.processBlock
    simp only [blockFromSlice_toList, hP, bind, Except.bind]
    rfl
  rw [this]
  rfl

theorem consume_blocks (hP : ∀ x s, process x s = .ok (P x s)) (bs : List (Vector U8 64)) (n : Nat) (s : Abcd)
    (hb : n + 64 * bs.length < 2 ^ 64) :
    (bs.flatMap Vector.toList).foldlM (Hasher.consume process) ⟨[], n, s⟩ =
      .ok ⟨[], n + 64 * bs.length, bs.foldl (comp P) s⟩ := by
  induction bs generalizing n s with
  | nil => rfl
  | cons b bs ih =>
    simp only [List.length_cons] at hb
    rw [List.flatMap_cons, List.foldlM_append, consume_block hP b n s (by omega)]
    show (bs.flatMap Vector.toList).foldlM (Hasher.consume process) _ = _
    rw [ih _ _ (by omega)]
    simp only [List.length_cons, List.foldl_cons]
    congr 2; omega

theorem consume_all (hP : ∀ x s, process x s = .ok (P x s)) (bs : List (Vector U8 64)) (tail : List U8)
    (ht : tail.length < 64) (hb : 64 * bs.length + tail.length < 2 ^ 64) :
    (bs.flatMap Vector.toList ++ tail).foldlM (Hasher.consume process) Hasher.new =
      .ok ⟨tail, 64 * bs.length + tail.length, bs.foldl (comp P) Hasher.new.s⟩ := by
  rw [List.foldlM_append]
  have : Hasher.new = ⟨[], 0, Hasher.new.s⟩ := rfl
  rw [this, consume_blocks hP bs 0 _ (by omega)]
  show tail.foldlM (Hasher.consume process) _ = _
  rw [consume_short _ _ (by simpa using ht) (by simp; omega)]
  simp

theorem numPadBytes_ok (a : Nat) (ha : a < 64) : numPadBytes a = .ok ((119 - a) % 64 + 1) := by
  unfold numPadBytes
  by_cases h : a = 56
  · rw [if_pos h]; subst h; rfl
  · rw [if_neg h]
    unfold subU
    rw [if_pos (by omega)]
    show Except.ok _ = _
    congr 1; omega

/-- The bytes `finish` feeds to the hasher. -/
def padding (a n : Nat) : List U8 := 0x80#8 :: List.replicate ((119 - a) % 64) 0#8 ++ natToLE 8 (8 * n)

theorem pad_length_mod (m : List U8) : (Spec.Md.pad m).length % 64 = 0 := by
  unfold Spec.Md.pad
  simp only [List.length_append, List.length_cons, List.length_replicate, length_natToLE]
  omega

theorem pad_length_le (m : List U8) : (Spec.Md.pad m).length ≤ m.length + 72 := by
  unfold Spec.Md.pad
  simp only [List.length_append, List.length_cons, List.length_replicate, length_natToLE]
  omega

theorem out_ok (a b c d : U32) : ∃ v, (do
      let out ← copyInto (Vector.replicate 16 0#8) 0 (natToLE 4 a.toNat)
      let out ← copyInto out 4 (natToLE 4 b.toNat)
      let out ← copyInto out 8 (natToLE 4 c.toNat)
      copyInto out 12 (natToLE 4 d.toNat)) = (.ok v : R (Vector U8 16)) ∧
    v.toList = natToLE 4 a.toNat ++ natToLE 4 b.toNat ++ natToLE 4 c.toNat ++ natToLE 4 d.toNat := by
  obtain ⟨v1, h1, e1⟩ := copyInto_ok (Vector.replicate 16 0#8) 0 (natToLE 4 a.toNat) (by simp [length_natToLE])
  obtain ⟨v2, h2, e2⟩ := copyInto_ok v1 4 (natToLE 4 b.toNat) (by simp [length_natToLE])
  obtain ⟨v3, h3, e3⟩ := copyInto_ok v2 8 (natToLE 4 c.toNat) (by simp [length_natToLE])
  obtain ⟨v4, h4, e4⟩ := copyInto_ok v3 12 (natToLE 4 d.toNat) (by simp [length_natToLE])
  refine ⟨v4, by simp only [h1, h2, h3, h4, bind, Except.bind], ?_⟩
  rw [length_natToLE] at e1 e2 e3 e4
  have l1 : (natToLE 4 a.toNat).length = 4 := length_natToLE _ _
  have l2 : (natToLE 4 b.toNat).length = 4 := length_natToLE _ _
  have l3 : (natToLE 4 c.toNat).length = 4 := length_natToLE _ _
  have t1 : v1.toList.take 4 = natToLE 4 a.toNat := by
    rw [e1, List.take_zero, List.nil_append, List.take_left' l1]
  have t2 : v2.toList.take 8 = natToLE 4 a.toNat ++ natToLE 4 b.toNat := by
    rw [e2, t1, List.take_left' (by simp [l1, l2])]
  have t3 : v3.toList.take 12 = natToLE 4 a.toNat ++ natToLE 4 b.toNat ++ natToLE 4 c.toNat := by
    rw [e3, t2, List.take_left' (by simp [l1, l2, l3])]
  rw [e4, t3, List.drop_eq_nil_of_le (by simp), List.append_nil]

/-- The whole hash, as a fold over the blocks of the padded message. -/
theorem hash_eq (hP : ∀ x s, process x s = .ok (P x s)) (m : List U8) (hm : m.length < 2 ^ 61) :
    ∃ (bs : List (Vector U8 64)) (v : Vector U8 16), bs.flatMap Vector.toList = Spec.Md.pad m ∧
      hash process m = .ok v ∧
      (let s := bs.foldl (comp P) Hasher.new.s
       v.toList = natToLE 4 s.a.toNat ++ natToLE 4 s.b.toNat ++ natToLE 4 s.c.toNat ++ natToLE 4 s.d.toNat) := by
  obtain ⟨bs, tail, e, ht, hbl⟩ := exists_chunks (n := 64) (by omega) m
  have htl : tail.length < 64 := by rw [ht]; exact Nat.mod_lt _ (by omega)
  have hml : m.length = 64 * bs.length + tail.length := by rw [ht, hbl]; omega
  obtain ⟨cs, tail', e', ht', hcl⟩ := exists_chunks (n := 64) (by omega) (Spec.Md.pad m)
  rw [pad_length_mod] at ht'
  have htl' : tail' = [] := List.eq_nil_of_length_eq_zero ht'
  subst htl'
  have hpl := pad_length_le m
  have h1 := consume_all hP bs tail htl (by omega)
  rw [← e, ← hml] at h1
  have h2 := consume_all hP cs [] (by simp) (by simp only [List.length_nil]; omega)
  rw [← e'] at h2
  have hpad : Spec.Md.pad m = m ++ padding tail.length m.length := by
    unfold Spec.Md.pad padding
    rw [ht]; simp
  rw [hpad, List.foldlM_append, h1] at h2
  simp only [bind, Except.bind] at h2
  obtain ⟨v, hv, ev⟩ := out_ok (cs.foldl (comp P) Hasher.new.s).a (cs.foldl (comp P) Hasher.new.s).b
    (cs.foldl (comp P) Hasher.new.s).c (cs.foldl (comp P) Hasher.new.s).d
  refine ⟨cs, v, by rw [e', List.append_nil], ?_, ev⟩
  have hmul : mulU64 m.length 8 = .ok (8 * m.length) := by
    unfold mulU64; rw [if_pos (by omega), Nat.mul_comm]
  have hsub : subU ((119 - tail.length) % 64 + 1) 1 = .ok ((119 - tail.length) % 64) := by
    unfold subU; rw [if_pos (by omega)]; rfl
  unfold hash
  rw [h1]
  show Hasher.finish process _ = _
  unfold Hasher.finish
  simp only [hmul, numPadBytes_ok _ htl]
  rw [padding, List.foldlM_append, List.foldlM_cons] at h2
  generalize Hasher.consume process ⟨tail, m.length, bs.foldl (comp P) Hasher.new.s⟩ 0x80#8 = r1 at h2 ⊢
  cases r1 with
  | error e => simp [bind, Except.bind] at h2
  | ok r1 =>
    simp only [bind, Except.bind, hsub] at h2 ⊢
    generalize (List.replicate ((119 - tail.length) % 64) 0#8).foldlM (Hasher.consume process) r1 = r2 at h2 ⊢
    cases r2 with
    | error e => simp at h2
    | ok r2 =>
      simp only at h2 ⊢
      rw [h2]
      simpa only [bind, Except.bind] using hv

end

/-! ## Connection with the specification -/

def four (s : Abcd) : Four := ⟨s.a, s.b, s.c, s.d⟩

theorem leWord_of (a b c d : U8) : BitVec.ofNat 32 (leVal [a, b, c, d]) = leU32 a b c d := by
  rw [leU32_eq]
  simp only [leVal]
  congr 1; omega

theorem word_block (bs : List (Vector U8 64)) (i t : Nat) (hi : i < bs.length) (ht : t < 16) :
    Spec.Md.word (bs.flatMap Vector.toList) (64 * i + 4 * t) = (blockWords bs[i])[t] := by
  have h := Sha.blocks_lt bs i (4 * t + 3) hi (by omega)
  unfold Spec.Md.word blockWords
  rw [Sha.take4_drop _ _ (by omega), leWord_of, Sha.getElem_blocks bs i (4 * t) hi (by omega)]
  simp only [Nat.add_assoc, Vector.getElem_ofFn, Nat.mul_comm t 4]
  rw [Sha.getElem_blocks bs i (4 * t + 1) hi (by omega), Sha.getElem_blocks bs i (4 * t + 2) hi (by omega),
    Sha.getElem_blocks bs i (4 * t + 3) hi (by omega)]

theorem new_eq_init : four Hasher.new.s = Spec.Md.init := by
  have h : ∀ a b c d a' b' c' d' : U32, a = a' ∧ b = b' ∧ c = c' ∧ d = d' → (⟨a, b, c, d⟩ : Four) = ⟨a', b', c', d'⟩ := by
    rintro a b c d _ _ _ _ ⟨rfl, rfl, rfl, rfl⟩; rfl
  exact h _ _ _ _ _ _ _ _ (by decide +kernel)

theorem buffer_eq {new : Nat → (Nat → U32) → Four → U32} {n : Nat} {P : Vector U32 16 → Abcd → Abcd}
    (hPn : ∀ (x : Vector U32 16) (X : Nat → U32) (s : Abcd), (∀ k (_ : k < 16), X k = x[k]) →
      four (P x s) = Spec.Md.steps new X (four s) n) (bs : List (Vector U8 64)) :
    four (bs.foldl (comp P) Hasher.new.s) = Spec.Md.buffer new n (bs.flatMap Vector.toList) bs.length := by
  refine Sha.foldl_blocks (comp P) four (Spec.Md.buffer new n (bs.flatMap Vector.toList)) _ bs new_eq_init ?_
  intro i hi s hs
  rw [Spec.Md.buffer, ← hs]
  have := hPn (blockWords bs[i]) _ s fun k hk => word_block bs i k hi hk
  rw [← this]
  rfl

theorem hash_spec {new : Nat → (Nat → U32) → Four → U32} {n : Nat} {process : Vector U32 16 → Abcd → R Abcd}
    {P : Vector U32 16 → Abcd → Abcd} (hP : ∀ x s, process x s = .ok (P x s))
    (hPn : ∀ (x : Vector U32 16) (X : Nat → U32) (s : Abcd), (∀ k (_ : k < 16), X k = x[k]) →
      four (P x s) = Spec.Md.steps new X (four s) n) (m : List U8) (hm : m.length < 2 ^ 61) :
    ∃ v, hash process m = .ok v ∧ v.toList = Spec.Md.digest new n m := by
  obtain ⟨bs, v, hb, hv, ev⟩ := hash_eq hP m hm
  refine ⟨v, hv, ?_⟩
  have hlen : (Spec.Md.pad m).length / 64 = bs.length := by
    rw [← hb, length_flatMap_toList, Nat.mul_div_cancel _ (by omega)]
  unfold Spec.Md.digest
  simp only
  rw [hlen, ← hb, ← buffer_eq hPn bs]
  exact ev

/-- Four consecutive steps. -/
theorem steps_four (new : Nat → (Nat → U32) → Four → U32) (X : Nat → U32) (s : Four) (t : Nat) :
    Spec.Md.steps new X s (t + 4) =
      (let r := Spec.Md.steps new X s t
       let a := new t X r
       let d := new (t + 1) X ⟨r.d, a, r.b, r.c⟩
       let c := new (t + 2) X ⟨r.c, d, a, r.b⟩
       let b := new (t + 3) X ⟨r.b, c, d, a⟩
       ⟨a, b, c, d⟩) := rfl

end Verif.Model.Md

namespace Verif.Model.Md4
open Verif Verif.Model.Md
open Verif.Spec.Md (Four md4New md4F md4K md4Index md4Shift)

theorem f_eq (x y z : U32) : f x y z = (x &&& y) ||| (~~~x &&& z) := (Sha.ch_or x y z).symm

/-- One row of the code is four steps of the specification. -/
theorem row_eq (op : Vector U32 16 → U32 → U32 → U32 → U32 → Fin 16 → Nat → U32) (x : Vector U32 16) (X : Nat → U32)
    (s0 : Four) (s : Abcd) (t : Nat) (is : Fin 16 × Fin 16 × Fin 16 × Fin 16) (ss : Nat × Nat × Nat × Nat)
    (hop : ∀ (j : Nat) (i : Fin 16) (k : Nat) (a b c d : U32), j < 4 →
      i.val = md4Index (t + j) → k = md4Shift (t + j) → op x a b c d i k = md4New (t + j) X ⟨a, b, c, d⟩)
    (hi : (is.1.val, is.2.1.val, is.2.2.1.val, is.2.2.2.val) =
      (md4Index t, md4Index (t + 1), md4Index (t + 2), md4Index (t + 3)))
    (hs : ss = (md4Shift t, md4Shift (t + 1), md4Shift (t + 2), md4Shift (t + 3)))
    (h : four s = Spec.Md.steps md4New X s0 t) :
    four (row op x s is ss) = Spec.Md.steps md4New X s0 (t + 4) := by
  obtain ⟨i0, i1, i2, i3⟩ := is
  subst hs
  simp only [Prod.mk.injEq] at hi
  rw [steps_four, ← h]
  have h0 : ∀ a b c d, op x a b c d i0 (md4Shift t) = md4New t X ⟨a, b, c, d⟩ := fun a b c d =>
    hop 0 i0 _ a b c d (by omega) hi.1 rfl
  have h1 : ∀ a b c d, op x a b c d i1 (md4Shift (t + 1)) = md4New (t + 1) X ⟨a, b, c, d⟩ := fun a b c d =>
    hop 1 i1 _ a b c d (by omega) hi.2.1 rfl
  have h2 : ∀ a b c d, op x a b c d i2 (md4Shift (t + 2)) = md4New (t + 2) X ⟨a, b, c, d⟩ := fun a b c d =>
    hop 2 i2 _ a b c d (by omega) hi.2.2.1 rfl
  have h3 : ∀ a b c d, op x a b c d i3 (md4Shift (t + 3)) = md4New (t + 3) X ⟨a, b, c, d⟩ := fun a b c d =>
    hop 3 i3 _ a b c d (by omega) hi.2.2.2 rfl
  unfold row
  simp only [h0, h1, h2, h3]
  rfl

theorem process_eq (x : Vector U32 16) (X : Nat → U32) (s : Abcd) (hX : ∀ k (_ : k < 16), X k = x[k]) :
    four (process x s) = Spec.Md.steps md4New X (four s) 48 := by
  have hff : ∀ (t : Nat), t < 16 → ∀ (i : Fin 16) (k : Nat) (a b c d : U32), i.val = md4Index t → k = md4Shift t →
      ff x a b c d i k = md4New t X ⟨a, b, c, d⟩ := by
    intro t ht i k a b c d hi hk
    subst hk
    simp only [ff, md4New, ← hi, hX i.val i.isLt, md4F, md4K, if_pos ht, f_eq]
    rw [BitVec.add_zero]
    rfl
  have hgg : ∀ (t : Nat), 16 ≤ t → t < 32 → ∀ (i : Fin 16) (k : Nat) (a b c d : U32), i.val = md4Index t →
      k = md4Shift t → gg x a b c d i k = md4New t X ⟨a, b, c, d⟩ := by
    intro t ht ht' i k a b c d hi hk
    subst hk
    simp only [gg, md4New, ← hi, hX i.val i.isLt, md4F, md4K, if_neg (Nat.not_lt.2 ht), if_pos ht']
    rfl
  have hhh : ∀ (t : Nat), 32 ≤ t → ∀ (i : Fin 16) (k : Nat) (a b c d : U32), i.val = md4Index t →
      k = md4Shift t → hh x a b c d i k = md4New t X ⟨a, b, c, d⟩ := by
    intro t ht i k a b c d hi hk
    subst hk
    simp only [hh, md4New, ← hi, hX i.val i.isLt, md4F, md4K, if_neg (Nat.not_lt.2 ht),
      if_neg (show ¬ t < 16 by omega)]
    rfl
  have h0 : four s = Spec.Md.steps md4New X (four s) 0 := rfl
  have h1 := row_eq ff x X (four s) _ 0 (0, 1, 2, 3) (3, 7, 11, 19)
    (fun j i k a b c d hj => hff _ (by omega) i k a b c d) (by decide) (by decide) h0
  have h2 := row_eq ff x X (four s) _ 4 (4, 5, 6, 7) (3, 7, 11, 19)
    (fun j i k a b c d hj => hff _ (by omega) i k a b c d) (by decide) (by decide) h1
  have h3 := row_eq ff x X (four s) _ 8 (8, 9, 10, 11) (3, 7, 11, 19)
    (fun j i k a b c d hj => hff _ (by omega) i k a b c d) (by decide) (by decide) h2
  have h4 := row_eq ff x X (four s) _ 12 (12, 13, 14, 15) (3, 7, 11, 19)
    (fun j i k a b c d hj => hff _ (by omega) i k a b c d) (by decide) (by decide) h3
  have h5 := row_eq gg x X (four s) _ 16 (0, 4, 8, 12) (3, 5, 9, 13)
    (fun j i k a b c d hj => hgg _ (by omega) (by omega) i k a b c d) (by decide) (by decide) h4
  have h6 := row_eq gg x X (four s) _ 20 (1, 5, 9, 13) (3, 5, 9, 13)
    (fun j i k a b c d hj => hgg _ (by omega) (by omega) i k a b c d) (by decide) (by decide) h5
  have h7 := row_eq gg x X (four s) _ 24 (2, 6, 10, 14) (3, 5, 9, 13)
    (fun j i k a b c d hj => hgg _ (by omega) (by omega) i k a b c d) (by decide) (by decide) h6
  have h8 := row_eq gg x X (four s) _ 28 (3, 7, 11, 15) (3, 5, 9, 13)
    (fun j i k a b c d hj => hgg _ (by omega) (by omega) i k a b c d) (by decide) (by decide) h7
  have h9 := row_eq hh x X (four s) _ 32 (0, 8, 4, 12) (3, 9, 11, 15)
    (fun j i k a b c d hj => hhh _ (by omega) i k a b c d) (by decide) (by decide) h8
  have h10 := row_eq hh x X (four s) _ 36 (2, 10, 6, 14) (3, 9, 11, 15)
    (fun j i k a b c d hj => hhh _ (by omega) i k a b c d) (by decide) (by decide) h9
  have h11 := row_eq hh x X (four s) _ 40 (1, 9, 5, 13) (3, 9, 11, 15)
    (fun j i k a b c d hj => hhh _ (by omega) i k a b c d) (by decide) (by decide) h10
  have h12 := row_eq hh x X (four s) _ 44 (3, 11, 7, 15) (3, 9, 11, 15)
    (fun j i k a b c d hj => hhh _ (by omega) i k a b c d) (by decide) (by decide) h11
  exact h12

theorem hash_eq (m : List U8) (hm : m.length < 2 ^ 61) : ∃ v, hash m = .ok v ∧ v.toList = Spec.Md.md4 m :=
  Md.hash_spec (P := process) (fun _ _ => rfl) process_eq m hm

end Verif.Model.Md4

namespace Verif.Model.Md5
open Verif Verif.Model.Md
open Verif.Spec.Md (Four md5New md5F md5T md5Index md5Shift)

/-- One table entry is one step of the specification. -/
def EntryOk (t : Nat) (e : Nat × Nat × Nat) : Prop := e = (md5Index t, md5Shift t, t + 1)

instance (t : Nat) (e : Nat × Nat × Nat) : Decidable (EntryOk t e) := by unfold EntryOk; infer_instance

theorem md5Index_lt (t : Nat) : md5Index t < 16 := by unfold md5Index; split <;> (try split) <;> (try split) <;> omega

theorem op_eq (fn : U32 → U32 → U32 → U32) (x : Vector U32 16) (X : Nat → U32) (hX : ∀ k (_ : k < 16), X k = x[k])
    (t : Nat) (ht : t < 64) (hfn : fn = md5F t) (e : Nat × Nat × Nat) (he : EntryOk t e) (a b c d : U32) :
    op fn x a b c d e = .ok (md5New t X ⟨a, b, c, d⟩) := by
  unfold EntryOk at he
  subst he hfn
  have h1 : vidx x (md5Index t) = .ok (X (md5Index t)) := by
    unfold vidx; rw [dif_pos (md5Index_lt t), hX]
  have h2 : subU (t + 1) 1 = .ok t := by unfold subU; rw [if_pos (by omega)]; rfl
  have h3 : vidx T t = .ok (md5T (t + 1)) := by
    unfold vidx; rw [dif_pos ht, T_eq t ht]
  unfold op
  simp only [h1, h2, h3, bind, Except.bind, md5New]
  rw [BitVec.add_comm _ b]

theorem row_eq (fn : U32 → U32 → U32 → U32) (x : Vector U32 16) (X : Nat → U32) (hX : ∀ k (_ : k < 16), X k = x[k])
    (s0 : Four) (s : Abcd) (t : Nat) (ht : t + 3 < 64) (hfn : ∀ j < 4, fn = md5F (t + j))
    (r : (Nat × Nat × Nat) × (Nat × Nat × Nat) × (Nat × Nat × Nat) × (Nat × Nat × Nat))
    (hr : EntryOk t r.1 ∧ EntryOk (t + 1) r.2.1 ∧ EntryOk (t + 2) r.2.2.1 ∧ EntryOk (t + 3) r.2.2.2)
    (h : four s = Spec.Md.steps md5New X s0 t) :
    ∃ s', row fn x s r = .ok s' ∧ four s' = Spec.Md.steps md5New X s0 (t + 4) := by
  obtain ⟨r0, r1, r2, r3⟩ := r
  obtain ⟨h0, h1, h2, h3⟩ := hr
  rw [steps_four, ← h]
  unfold row
  simp only
  rw [op_eq fn x X hX t (by omega) (hfn 0 (by omega)) r0 h0]
  simp only [bind, Except.bind]
  rw [op_eq fn x X hX (t + 1) (by omega) (hfn 1 (by omega)) r1 h1]
  simp only
  rw [op_eq fn x X hX (t + 2) (by omega) (hfn 2 (by omega)) r2 h2]
  simp only
  rw [op_eq fn x X hX (t + 3) (by omega) (hfn 3 (by omega)) r3 h3]
  exact ⟨_, rfl, rfl⟩

/-- Four rows: one of the four loops. -/
theorem loop_eq (fn : U32 → U32 → U32 → U32) (x : Vector U32 16) (X : Nat → U32) (hX : ∀ k (_ : k < 16), X k = x[k])
    (s0 : Four) (s : Abcd) (t : Nat) (ht : t + 15 < 64) (hfn : ∀ j < 16, fn = md5F (t + j))
    (r0 r1 r2 r3 : (Nat × Nat × Nat) × (Nat × Nat × Nat) × (Nat × Nat × Nat) × (Nat × Nat × Nat))
    (h0 : EntryOk t r0.1 ∧ EntryOk (t + 1) r0.2.1 ∧ EntryOk (t + 2) r0.2.2.1 ∧ EntryOk (t + 3) r0.2.2.2)
    (h1 : EntryOk (t + 4) r1.1 ∧ EntryOk (t + 5) r1.2.1 ∧ EntryOk (t + 6) r1.2.2.1 ∧ EntryOk (t + 7) r1.2.2.2)
    (h2 : EntryOk (t + 8) r2.1 ∧ EntryOk (t + 9) r2.2.1 ∧ EntryOk (t + 10) r2.2.2.1 ∧ EntryOk (t + 11) r2.2.2.2)
    (h3 : EntryOk (t + 12) r3.1 ∧ EntryOk (t + 13) r3.2.1 ∧ EntryOk (t + 14) r3.2.2.1 ∧ EntryOk (t + 15) r3.2.2.2)
    (h : four s = Spec.Md.steps md5New X s0 t) :
    ∃ s', [r0, r1, r2, r3].foldlM (row fn x) s = .ok s' ∧ four s' = Spec.Md.steps md5New X s0 (t + 16) := by
  obtain ⟨s1, e1, g1⟩ := row_eq fn x X hX s0 s t (by omega) (fun j hj => hfn j (by omega)) r0 h0 h
  obtain ⟨s2, e2, g2⟩ := row_eq fn x X hX s0 s1 (t + 4) (by omega)
    (fun j hj => by rw [Nat.add_assoc]; exact hfn _ (by omega)) r1 h1 g1
  obtain ⟨s3, e3, g3⟩ := row_eq fn x X hX s0 s2 (t + 8) (by omega)
    (fun j hj => by rw [Nat.add_assoc]; exact hfn _ (by omega)) r2 h2 g2
  obtain ⟨s4, e4, g4⟩ := row_eq fn x X hX s0 s3 (t + 12) (by omega)
    (fun j hj => by rw [Nat.add_assoc]; exact hfn _ (by omega)) r3 h3 g3
  refine ⟨s4, ?_, g4⟩
  simp only [List.foldlM_cons, List.foldlM_nil, e1, e2, e3, e4, bind, Except.bind, pure, Except.pure]

theorem f_eq (t : Nat) (ht : t < 16) : f = md5F t := by
  funext x y z; simp only [f, md5F, if_pos ht]
theorem g_eq (t : Nat) (ht : 16 ≤ t) (ht' : t < 32) : g = md5F t := by
  funext x y z; simp only [g, md5F, if_neg (Nat.not_lt.2 ht), if_pos ht']
theorem h_eq (t : Nat) (ht : 32 ≤ t) (ht' : t < 48) : h = md5F t := by
  funext x y z
  simp only [h, md5F, if_neg (show ¬ t < 16 by omega), if_neg (show ¬ t < 32 by omega), if_pos ht']
theorem i_eq (t : Nat) (ht : 48 ≤ t) : i = md5F t := by
  funext x y z
  simp only [i, md5F, if_neg (show ¬ t < 16 by omega), if_neg (show ¬ t < 32 by omega),
    if_neg (show ¬ t < 48 by omega)]

theorem bind4 {α : Type} {a : R α} {b c d : α → R α} {s1 s2 s3 s4 : α} (h1 : a = .ok s1) (h2 : b s1 = .ok s2)
    (h3 : c s2 = .ok s3) (h4 : d s3 = .ok s4) : (do let s ← a; let s ← b s; let s ← c s; let s ← d s; .ok s) = .ok s4 := by
  subst h1
  show (do let s ← b s1; let s ← c s; let s ← d s; .ok s) = _
  rw [h2]
  show (do let s ← c s2; let s ← d s; .ok s) = _
  rw [h3]
  show (do let s ← d s3; .ok s) = _
  rw [h4]
  rfl

theorem process_ok (x : Vector U32 16) (X : Nat → U32) (s : Abcd) (hX : ∀ k (_ : k < 16), X k = x[k]) :
    ∃ s', process x s = .ok s' ∧ four s' = Spec.Md.steps md5New X (four s) 64 := by
  obtain ⟨s1, e1, g1⟩ := loop_eq f x X hX (four s) s 0 (by omega) (fun j hj => f_eq _ (by omega))
    ((0, 7, 1), (1, 12, 2), (2, 17, 3), (3, 22, 4)) ((4, 7, 5), (5, 12, 6), (6, 17, 7), (7, 22, 8))
    ((8, 7, 9), (9, 12, 10), (10, 17, 11), (11, 22, 12)) ((12, 7, 13), (13, 12, 14), (14, 17, 15), (15, 22, 16))
    (by decide) (by decide) (by decide) (by decide) rfl
  obtain ⟨s2, e2, g2⟩ := loop_eq g x X hX (four s) s1 16 (by omega) (fun j hj => g_eq _ (by omega) (by omega))
    ((1, 5, 17), (6, 9, 18), (11, 14, 19), (0, 20, 20)) ((5, 5, 21), (10, 9, 22), (15, 14, 23), (4, 20, 24))
    ((9, 5, 25), (14, 9, 26), (3, 14, 27), (8, 20, 28)) ((13, 5, 29), (2, 9, 30), (7, 14, 31), (12, 20, 32))
    (by decide) (by decide) (by decide) (by decide) g1
  obtain ⟨s3, e3, g3⟩ := loop_eq h x X hX (four s) s2 32 (by omega) (fun j hj => h_eq _ (by omega) (by omega))
    ((5, 4, 33), (8, 11, 34), (11, 16, 35), (14, 23, 36)) ((1, 4, 37), (4, 11, 38), (7, 16, 39), (10, 23, 40))
    ((13, 4, 41), (0, 11, 42), (3, 16, 43), (6, 23, 44)) ((9, 4, 45), (12, 11, 46), (15, 16, 47), (2, 23, 48))
    (by decide) (by decide) (by decide) (by decide) g2
  obtain ⟨s4, e4, g4⟩ := loop_eq i x X hX (four s) s3 48 (by omega) (fun j hj => i_eq _ (by omega))
    ((0, 6, 49), (7, 10, 50), (14, 15, 51), (5, 21, 52)) ((12, 6, 53), (3, 10, 54), (10, 15, 55), (1, 21, 56))
    ((8, 6, 57), (15, 10, 58), (6, 15, 59), (13, 21, 60)) ((4, 6, 61), (11, 10, 62), (2, 15, 63), (9, 21, 64))
    (by decide) (by decide) (by decide) (by decide) g3
  refine ⟨s4, ?_, g4⟩
  unfold process
  exact bind4 e1 e2 e3 e4

/-- `process` as a total function. -/
def processT (x : Vector U32 16) (s : Abcd) : Abcd :=
  match process x s with
  | .ok s' => s'
  | .error _ => s

theorem process_total (x : Vector U32 16) (s : Abcd) : process x s = .ok (processT x s) := by
  obtain ⟨s', e, -⟩ := process_ok x (fun k => if h : k < 16 then x[k] else 0#32) s (fun k hk => by simp [hk])
  unfold processT; rw [e]

theorem processT_eq (x : Vector U32 16) (X : Nat → U32) (s : Abcd) (hX : ∀ k (_ : k < 16), X k = x[k]) :
    four (processT x s) = Spec.Md.steps md5New X (four s) 64 := by
  obtain ⟨s', e, g⟩ := process_ok x X s hX
  unfold processT; rw [e]; exact g

theorem hash_eq (m : List U8) (hm : m.length < 2 ^ 61) : ∃ v, hash m = .ok v ∧ v.toList = Spec.Md.md5 m :=
  Md.hash_spec (P := processT) process_total processT_eq m hm

end Verif.Model.Md5
