import Verif.Model.MdWidth
import Verif.Proof.ReleaseHash

/-! # MD4 and MD5 for any width of `usize`: proofs -/

namespace Verif.Model.MdWidth
open Verif
open _root_.Verif.Model.Md
open _root_.Verif.Model.Release (addW mulW subW)

variable {process : Vector U32 16 → Abcd → R Abcd} {P : Vector U32 16 → Abcd → Abcd}

/-! ## Overflow checks on -/
namespace Checked
variable {w : Nat}

theorem hash_64 (process : Vector U32 16 → Abcd → R Abcd) (m : List U8) : hash 64 process m = Md.hash process m := by
  have : consume 64 process = Hasher.consume process := by
    funext h b
    unfold consume Hasher.consume
    rfl
  have hm : mulU 64 = mulU64 := by
    funext a b
    unfold mulU mulU64
    rfl
  unfold hash Md.hash finish Hasher.finish
  rw [this, hm]

theorem consume_eq (hw : w ≤ 64) (h : Hasher) (b : U8) (hb : h.bytesConsumed + 1 < 2 ^ w) :
    consume w process h b = h.consume process b := by
  have : (2 : Nat) ^ w ≤ 2 ^ 64 := Nat.pow_le_pow_right (by omega) hw
  unfold consume Hasher.consume
  rw [if_pos hb, if_pos (show h.bytesConsumed + 1 < 2 ^ 64 by omega)]

theorem bytes_consume (h h' : Hasher) (b : U8) (e : h.consume process b = .ok h') :
    h'.bytesConsumed = h.bytesConsumed + 1 := by
  unfold Hasher.consume at e
  by_cases hb : h.bytesConsumed + 1 < 2 ^ 64
  · rw [if_pos hb] at e
    simp only at e
    by_cases hl : (h.unprocessed ++ [b]).length = 64
    · rw [if_pos hl] at e
      unfold Hasher.processBlock at e
      rcases hb1 : blockFromSlice (h.unprocessed ++ [b]) with p | x
      · simp [hb1, bind, Except.bind] at e
      · rcases hp : process x h.s with p | r
        · simp [hb1, hp, bind, Except.bind] at e
        · simp only [hb1, hp, bind, Except.bind, Except.ok.injEq] at e
          rw [← e]
    · rw [if_neg hl] at e
      rw [← Except.ok.inj e]
  · rw [if_neg hb] at e
    simp at e

theorem fold_eq (hw : w ≤ 64) (l : List U8) (h : Hasher) (hb : h.bytesConsumed + l.length < 2 ^ w) :
    l.foldlM (consume w process) h = l.foldlM (Hasher.consume process) h ∧
      ∀ h', l.foldlM (Hasher.consume process) h = .ok h' → h'.bytesConsumed = h.bytesConsumed + l.length := by
  induction l generalizing h with
  | nil => exact ⟨rfl, fun h' e => by rw [← Except.ok.inj e]; rfl⟩
  | cons b l ih =>
    simp only [List.length_cons] at hb
    rw [List.foldlM_cons, List.foldlM_cons, consume_eq hw h b (by omega)]
    rcases e : h.consume process b with p | h1
    · exact ⟨rfl, fun h' e' => by simp [bind, Except.bind] at e'⟩
    · have hb1 := bytes_consume h h1 b e
      obtain ⟨i1, i2⟩ := ih h1 (by omega)
      refine ⟨i1, fun h' e' => ?_⟩
      have := i2 h' e'
      simp only [List.length_cons]
      omega

/-- Below the limit the width of `usize` does not matter. -/
theorem hash_eq (hw : 16 ≤ w) (hw' : w ≤ 64) (m : List U8) (hm : m.length < 2 ^ (w - 3)) :
    hash w process m = Md.hash process m := by
  have h8 : (2 : Nat) ^ w = 8 * 2 ^ (w - 3) := by
    rw [show (8 : Nat) = 2 ^ 3 by rfl, ← pow_add]; congr 1; omega
  have h13 : (2 : Nat) ^ 13 ≤ 2 ^ (w - 3) := Nat.pow_le_pow_right (by omega) (by omega)
  have h64 : (2 : Nat) ^ w ≤ 2 ^ 64 := Nat.pow_le_pow_right (by omega) hw'
  obtain ⟨f1, f2⟩ := fold_eq (process := process) hw' m Hasher.new (by simp [Hasher.new]; omega)
  unfold hash Md.hash
  rw [f1]
  rcases e : m.foldlM (Hasher.consume process) Hasher.new with p | h
  · rfl
  have hb : h.bytesConsumed = m.length := by rw [f2 h e]; simp [Hasher.new]
  show finish w process h = h.finish process
  unfold finish Hasher.finish
  rw [mulU, if_pos (by omega), mulU64, if_pos (by omega)]
  simp only [bind, Except.bind]
  rcases hn : numPadBytes h.unprocessed.length with p | n
  · rfl
  have hn' : n ≤ 64 := by
    unfold numPadBytes at hn
    by_cases h56 : h.unprocessed.length = 56
    · rw [if_pos h56] at hn
      have := Except.ok.inj hn
      omega
    · rw [if_neg h56] at hn
      rcases hs : subU (64 + 56) h.unprocessed.length with p | s
      · simp [hs, bind, Except.bind] at hn
      · simp only [hs, bind, Except.bind, Except.ok.injEq] at hn
        omega
  simp only
  rw [consume_eq hw' _ _ (by omega)]
  rcases e1 : h.consume process 0x80#8 with p | h1
  · rfl
  have hb1 := bytes_consume h h1 _ e1
  simp only
  rcases hs : subU n 1 with p | k
  · rfl
  have hk : k ≤ 64 := by
    unfold subU at hs
    by_cases h1 : 1 ≤ n
    · rw [if_pos h1] at hs
      have := Except.ok.inj hs
      omega
    · rw [if_neg h1] at hs
      simp at hs
  simp only
  obtain ⟨g1, g2⟩ := fold_eq (process := process) hw' (List.replicate k 0#8) h1 (by simp; omega)
  rw [g1]
  rcases e2 : (List.replicate k 0#8).foldlM (Hasher.consume process) h1 with p | h2
  · rfl
  have hb2 := g2 h2 e2
  simp only [List.length_replicate] at hb2
  simp only
  obtain ⟨k1, _⟩ := fold_eq (process := process) hw' (natToLE 8 (h.bytesConsumed * 8)) h2 (by rw [length_natToLE]; omega)
  rw [k1]

theorem consume_ok (hP : ∀ x s, process x s = .ok (P x s)) (h : Hasher) (b : U8) (hu : h.unprocessed.length < 64)
    (hb : h.bytesConsumed + 1 < 2 ^ w) :
    ∃ h', consume w process h b = .ok h' ∧ h'.unprocessed.length < 64 ∧ h'.bytesConsumed = h.bytesConsumed + 1 := by
  unfold consume
  rw [if_pos hb]
  simp only
  by_cases hl : (h.unprocessed ++ [b]).length = 64
  · rw [if_pos hl]
    unfold Hasher.processBlock blockFromSlice
    simp only
    rw [dif_pos (by omega)]
    simp only [bind, Except.bind, hP]
    exact ⟨_, rfl, by simp, rfl⟩
  · rw [if_neg hl]
    exact ⟨_, rfl, by simp at hl ⊢; omega, rfl⟩

theorem fold_over (hP : ∀ x s, process x s = .ok (P x s)) (l : List U8) (h : Hasher) (hu : h.unprocessed.length < 64)
    (hb : 2 ^ w ≤ h.bytesConsumed + l.length) (hb' : h.bytesConsumed < 2 ^ w) :
    l.foldlM (consume w process) h = .error .overflow := by
  induction l generalizing h with
  | nil => simp at hb; omega
  | cons b l ih =>
    simp only [List.length_cons] at hb
    rw [List.foldlM_cons]
    by_cases hc : h.bytesConsumed + 1 < 2 ^ w
    · obtain ⟨h', e, u, c⟩ := consume_ok hP h b hu hc
      rw [e]
      exact ih h' u (by omega) (by omega)
    · have : consume w process h b = .error .overflow := by unfold consume; rw [if_neg hc]
      rw [this]; rfl

theorem fold_total (hP : ∀ x s, process x s = .ok (P x s)) (l : List U8) (h : Hasher) (hu : h.unprocessed.length < 64)
    (hb : h.bytesConsumed + l.length < 2 ^ w) :
    ∃ h', l.foldlM (consume w process) h = .ok h' ∧ h'.bytesConsumed = h.bytesConsumed + l.length := by
  induction l generalizing h with
  | nil => exact ⟨h, rfl, rfl⟩
  | cons b l ih =>
    simp only [List.length_cons] at hb
    rw [List.foldlM_cons]
    obtain ⟨h', e, u, c⟩ := consume_ok hP h b hu (by omega : h.bytesConsumed + 1 < 2 ^ w)
    obtain ⟨h2, e2, c2⟩ := ih h' u (by omega)
    rw [e]
    exact ⟨h2, e2, by rw [c2, c, List.length_cons]; omega⟩

/-- From the limit on the arithmetic panics. -/
theorem hash_over (hP : ∀ x s, process x s = .ok (P x s)) (hw : 3 ≤ w) (m : List U8) (hm : 2 ^ (w - 3) ≤ m.length) :
    hash w process m = .error .overflow := by
  have h8 : (2 : Nat) ^ w = 8 * 2 ^ (w - 3) := by
    rw [show (8 : Nat) = 2 ^ 3 by rfl, ← pow_add]; congr 1; omega
  unfold hash
  by_cases hb : m.length < 2 ^ w
  · obtain ⟨h, e, c⟩ := fold_total (w := w) hP m Hasher.new (by simp [Hasher.new]) (by simpa [Hasher.new] using hb)
    rw [e]
    show finish w process h = _
    unfold finish
    rw [mulU, if_neg (by rw [c]; simp [Hasher.new]; omega)]
    rfl
  · rw [fold_over hP m Hasher.new (by simp [Hasher.new]) (by simp [Hasher.new]; omega)
      (by simp [Hasher.new])]
    rfl

end Checked

/-! ## Overflow checks off -/
namespace Wrapping
variable {w : Nat}

theorem hash_64 (process : Vector U32 16 → Abcd → R Abcd) (m : List U8) : hash 64 process m = Release.mdHash process m := rfl

theorem consume_short (l : List U8) (h : Hasher) (hl : h.unprocessed.length + l.length < 64) :
    l.foldlM (consume w process) ⟨h.unprocessed, h.bytesConsumed % 2 ^ w, h.s⟩ =
      .ok ⟨h.unprocessed ++ l, (h.bytesConsumed + l.length) % 2 ^ w, h.s⟩ := by
  induction l generalizing h with
  | nil => simp [pure, Except.pure]
  | cons b l ih =>
    simp only [List.length_cons] at hl
    rw [List.foldlM_cons]
    have : consume w process ⟨h.unprocessed, h.bytesConsumed % 2 ^ w, h.s⟩ b =
        .ok ⟨h.unprocessed ++ [b], (h.bytesConsumed + 1) % 2 ^ w, h.s⟩ := by
      unfold consume
      simp only
      rw [if_neg (by simp; omega), addW, Nat.mod_add_mod]
    rw [this]
    show l.foldlM (consume w process) _ = _
    rw [ih ⟨h.unprocessed ++ [b], h.bytesConsumed + 1, h.s⟩ (by simp; omega)]
    simp only [List.append_assoc, List.singleton_append, List.length_cons]
    rw [show h.bytesConsumed + 1 + l.length = h.bytesConsumed + (l.length + 1) by omega]

theorem consume_block (hP : ∀ x s, process x s = .ok (P x s)) (b : Vector U8 64) (n : Nat) (s : Abcd) :
    b.toList.foldlM (consume w process) ⟨[], n % 2 ^ w, s⟩ = .ok ⟨[], (n + 64) % 2 ^ w, comp P s b⟩ := by
  have hsplit : b.toList = b.toList.take 63 ++ [b[63]] := by
    have h64 : b.toList = b.toList.take 64 := by rw [List.take_of_length_le (by simp)]
    conv => lhs; rw [h64]
    rw [List.take_succ_eq_append_getElem (by simp)]
    simp
  have hlen : (b.toList.take 63).length = 63 := by simp
  have h1 := consume_short (w := w) (process := process) (b.toList.take 63) ⟨[], n, s⟩ (by simp)
  rw [hsplit, List.foldlM_append, h1]
  simp only [bind, Except.bind, List.foldlM_cons, List.foldlM_nil, List.nil_append, hlen]
  have : consume w process ⟨b.toList.take 63, (n + 63) % 2 ^ w, s⟩ b[63] = .ok ⟨[], (n + 64) % 2 ^ w, comp P s b⟩ := by
    unfold consume
    simp only
    rw [if_pos (by simp), ← hsplit]
    unfold Hasher.processBlock
    simp only [blockFromSlice_toList, hP, bind, Except.bind, addW]
    rw [Nat.mod_add_mod]
    rfl
  rw [this]
  rfl

theorem consume_blocks (hP : ∀ x s, process x s = .ok (P x s)) (bs : List (Vector U8 64)) (n : Nat) (s : Abcd) :
    (bs.flatMap Vector.toList).foldlM (consume w process) ⟨[], n % 2 ^ w, s⟩ =
      .ok ⟨[], (n + 64 * bs.length) % 2 ^ w, bs.foldl (comp P) s⟩ := by
  induction bs generalizing n s with
  | nil => rfl
  | cons b bs ih =>
    rw [List.flatMap_cons, List.foldlM_append, consume_block hP b n s]
    show (bs.flatMap Vector.toList).foldlM (consume w process) _ = _
    rw [ih]
    simp only [List.length_cons, List.foldl_cons]
    rw [show n + 64 + 64 * bs.length = n + 64 * (bs.length + 1) by omega]

theorem consume_all (hP : ∀ x s, process x s = .ok (P x s)) (bs : List (Vector U8 64)) (tail : List U8)
    (ht : tail.length < 64) :
    (bs.flatMap Vector.toList ++ tail).foldlM (consume w process) Hasher.new =
      .ok ⟨tail, (64 * bs.length + tail.length) % 2 ^ w, bs.foldl (comp P) Hasher.new.s⟩ := by
  rw [List.foldlM_append]
  have : Hasher.new = ⟨[], 0 % 2 ^ w, Hasher.new.s⟩ := by rw [Nat.zero_mod]; rfl
  rw [this, consume_blocks hP bs 0 _]
  show tail.foldlM (consume w process) _ = _
  have h1 := consume_short (w := w) (process := process) tail ⟨[], 0 + 64 * bs.length, bs.foldl (comp P) Hasher.new.s⟩ (by simpa using ht)
  simp only at h1
  rw [h1]
  simp

theorem hash_eq (hw : 8 ≤ w) (hP : ∀ x s, process x s = .ok (P x s)) (m p : List U8)
    (hp : p = m ++ 0x80#8 :: List.replicate ((119 - m.length % 64) % 64) 0#8 ++ natToLE 8 (8 * m.length % 2 ^ w)) :
    ∃ (bs : List (Vector U8 64)) (v : Vector U8 16), bs.flatMap Vector.toList = p ∧
      hash w process m = .ok v ∧
      (let s := bs.foldl (comp P) Hasher.new.s
       v.toList = natToLE 4 s.a.toNat ++ natToLE 4 s.b.toNat ++ natToLE 4 s.c.toNat ++ natToLE 4 s.d.toNat) := by
  obtain ⟨bs, tail, e, ht, hbl⟩ := exists_chunks (n := 64) (by omega) m
  have htl : tail.length < 64 := by rw [ht]; exact Nat.mod_lt _ (by omega)
  have hml : m.length = 64 * bs.length + tail.length := by rw [ht, hbl]; omega
  obtain ⟨cs, tail', e', ht', hcl⟩ := exists_chunks (n := 64) (by omega) p
  have hpl : p.length % 64 = 0 := by
    rw [hp]
    simp only [List.length_append, List.length_cons, List.length_replicate, length_natToLE]
    omega
  rw [hpl] at ht'
  have htl' : tail' = [] := List.eq_nil_of_length_eq_zero ht'
  subst htl'
  have h1 := consume_all (w := w) hP bs tail htl
  rw [← e, ← hml] at h1
  have h2 := consume_all (w := w) hP cs [] (by simp)
  rw [← e'] at h2
  have hpad : p = m ++ (0x80#8 :: List.replicate ((119 - tail.length) % 64) 0#8 ++ natToLE 8 (8 * m.length % 2 ^ w)) := by
    rw [hp, ht]; simp
  rw [hpad, List.foldlM_append, h1] at h2
  simp only [bind, Except.bind] at h2
  obtain ⟨v, hv, ev⟩ := out_ok (cs.foldl (comp P) Hasher.new.s).a (cs.foldl (comp P) Hasher.new.s).b
    (cs.foldl (comp P) Hasher.new.s).c (cs.foldl (comp P) Hasher.new.s).d
  refine ⟨cs, v, by rw [e', List.append_nil], ?_, ev⟩
  have hmul : mulW w (m.length % 2 ^ w) 8 = 8 * m.length % 2 ^ w := by
    rw [mulW, Nat.mod_mul_mod, Nat.mul_comm]
  have h256 : (2 : Nat) ^ 8 ≤ 2 ^ w := Nat.pow_le_pow_right (by omega) hw
  have hsub : subW w ((119 - tail.length) % 64 + 1) 1 = (119 - tail.length) % 64 := by
    unfold subW; rw [if_pos (by omega)]; rfl
  unfold hash
  rw [h1]
  show finish w process _ = _
  unfold finish
  simp only [hmul, Release.numPadBytes_eq _ htl, hsub]
  rw [List.foldlM_append, List.foldlM_cons] at h2
  generalize consume w process ⟨tail, m.length % 2 ^ w, bs.foldl (comp P) Hasher.new.s⟩ 0x80#8 = r1 at h2 ⊢
  cases r1 with
  | error e => simp [bind, Except.bind] at h2
  | ok r1 =>
    simp only [bind, Except.bind] at h2 ⊢
    generalize (List.replicate ((119 - tail.length) % 64) 0#8).foldlM (consume w process) r1 = r2 at h2 ⊢
    cases r2 with
    | error e => simp at h2
    | ok r2 =>
      simp only at h2 ⊢
      rw [h2]
      simpa only [bind, Except.bind] using hv

theorem hash_spec {new : Nat → (Nat → U32) → Spec.Md.Four → U32} {n : Nat} (hw : 8 ≤ w)
    (hP : ∀ x s, process x s = .ok (P x s))
    (hPn : ∀ (x : Vector U32 16) (X : Nat → U32) (s : Abcd), (∀ k (_ : k < 16), X k = x[k]) →
      four (P x s) = Spec.Md.steps new X (four s) n) (m p : List U8)
    (hp : p = m ++ 0x80#8 :: List.replicate ((119 - m.length % 64) % 64) 0#8 ++ natToLE 8 (8 * m.length % 2 ^ w)) :
    ∃ v, hash w process m = .ok v ∧
      (let H := Spec.Md.buffer new n p (p.length / 64)
       v.toList = natToLE 4 H.a.toNat ++ natToLE 4 H.b.toNat ++ natToLE 4 H.c.toNat ++ natToLE 4 H.d.toNat) := by
  obtain ⟨bs, v, hb, hv, ev⟩ := hash_eq hw hP m p hp
  refine ⟨v, hv, ?_⟩
  have hlen : p.length / 64 = bs.length := by
    rw [← hb, length_flatMap_toList, Nat.mul_div_cancel _ (by omega)]
  simp only
  rw [hlen, ← hb, ← buffer_eq hPn bs]
  exact ev

end Wrapping

end Verif.Model.MdWidth
