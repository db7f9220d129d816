import Verif.Model.Asn1
import Verif.Spec.Asn1
import Verif.Proof.RsaMessage

/-! # The ASN.1 parser -/

namespace Verif.Model.Asn1
open Verif Verif.Model.Oaep Verif.Spec.Asn1

/-! ## Length fields -/

theorem high_bit : ∀ b : U8, (b &&& 0x80#8 ≠ 0#8) ↔ 128 ≤ b.toNat := by decide +kernel
theorem low_bits : ∀ b : U8, 128 ≤ b.toNat → (b &&& 0x7f#8).toNat = b.toNat - 128 := by decide +kernel

theorem copy_zeros (off : Nat) (src : List U8) (h : off + src.length = 16) :
    ∃ v, copyInto (Vector.replicate 16 0#8) off src = .ok v ∧ v.toList = List.replicate off 0#8 ++ src := by
  unfold copyInto
  rw [if_pos (by omega)]
  refine ⟨_, rfl, ?_⟩
  apply List.ext_getElem
  · simp; omega
  · intro i h1 h2
    rw [Vector.length_toList] at h1
    rw [Vector.getElem_toList, Vector.getElem_ofFn, List.getElem_append]
    simp only [List.length_replicate, List.getElem_replicate]
    by_cases hi : i < off
    · rw [dif_pos hi, if_neg (by omega)]
      simp
    · rw [dif_neg hi, if_pos (by omega), List.getD_eq_getElem _ _ (by omega)]

theorem lengthField_ok (tag : U8) (lf rest : List U8) (n : Nat) (h : LengthField lf n) :
    lengthField (tag :: lf ++ rest) = .ok (rest, n) := by
  obtain ⟨hl, m, hd, rfl⟩ := h
  cases hd with
  | short b hb =>
    unfold lengthField
    have e : idx (tag :: [b] ++ rest) 1 = .ok b := rfl
    simp only [e, bind, Except.bind]
    rw [if_neg (by rw [high_bit]; omega), slice_to_end _ _ (by simp)]
    rw [Nat.mod_eq_of_lt (by omega)]
    rfl
  | long b digits hb =>
    simp only [List.length_cons] at hl
    unfold lengthField
    have e : idx (tag :: b :: digits ++ rest) 1 = .ok b := rfl
    have e1 : subU 16 digits.length = .ok (16 - digits.length) := by unfold subU; rw [if_pos (by omega)]
    have e2 : slice (tag :: b :: digits ++ rest) 2 (2 + digits.length) = .ok digits := by
      rw [slice_ok _ _ _ (by omega) (by simp; omega)]
      simp
    have e3 : slice (tag :: b :: digits ++ rest) (2 + digits.length) (tag :: b :: digits ++ rest).length = .ok rest := by
      rw [slice_to_end _ _ (by simp; omega), Nat.add_comm]
      simp
    obtain ⟨v, hv, hvl⟩ := copy_zeros (16 - digits.length) digits (by omega)
    simp only [e, bind, Except.bind]
    rw [if_pos (by rw [high_bit]; omega), low_bits b (by omega), hb, Nat.add_sub_cancel_left]
    simp only [e1, e2, hv, e3, hvl, beVal_zeros_append]

theorem lengthField_cases (tag b : U8) (r : List U8) :
    ((128 + 16 < b.toNat ∨ 128 + r.length < b.toNat) ∧ ∃ p, p ≠ .diverged ∧ lengthField (tag :: b :: r) = .error p) ∨
    ∃ lf rest n, b :: r = lf ++ rest ∧ LengthField lf n ∧ ¬ (128 + 16 < b.toNat ∨ 128 + r.length < b.toNat) := by
  by_cases hs : b.toNat < 128
  · exact Or.inr ⟨[b], r, b.toNat, rfl, ⟨by simp, b.toNat, .short b hs, (Nat.mod_eq_of_lt (by omega)).symm⟩, by omega⟩
  · by_cases h1 : 128 + 16 < b.toNat
    · refine Or.inl ⟨Or.inl h1, .overflow, by simp, ?_⟩
      unfold lengthField
      have e : idx (tag :: b :: r) 1 = .ok b := rfl
      have e1 : subU 16 (b.toNat - 128) = .error .overflow := by unfold subU; rw [if_neg (by omega)]
      simp only [e, bind, Except.bind]
      rw [if_pos (by rw [high_bit]; omega), low_bits b (by omega), e1]
    · by_cases h2 : 128 + r.length < b.toNat
      · refine Or.inl ⟨Or.inr h2, .index, by simp, ?_⟩
        unfold lengthField
        have e : idx (tag :: b :: r) 1 = .ok b := rfl
        have e1 : subU 16 (b.toNat - 128) = .ok (16 - (b.toNat - 128)) := by unfold subU; rw [if_pos (by omega)]
        simp only [e, bind, Except.bind]
        rw [if_pos (by rw [high_bit]; omega), low_bits b (by omega), e1]
        simp only
        rw [slice_err _ _ _ (by simp; omega)]
      · refine Or.inr ⟨b :: r.take (b.toNat - 128), r.drop (b.toNat - 128), _, by simp,
          ⟨by simp; omega, _, .long b _ (by simp; omega), rfl⟩, by omega⟩

theorem lengthField_unique {lf lf' r r' : List U8} {n n' : Nat} (h : LengthField lf n) (h' : LengthField lf' n')
    (e : lf ++ r = lf' ++ r') : lf = lf' ∧ n = n' ∧ r = r' := by
  have h1 := lengthField_ok 0#8 lf r n h
  have h2 := lengthField_ok 0#8 lf' r' n' h'
  rw [List.cons_append, e, ← List.cons_append, h2] at h1
  have h3 := Except.ok.inj h1
  have hr : r = r' := (Prod.mk.inj h3).1.symm
  have hn : n = n' := (Prod.mk.inj h3).2.symm
  subst hr
  exact ⟨List.append_cancel_right e, hn, rfl⟩

theorem lf_ne_nil {lf : List U8} {n : Nat} (h : LengthField lf n) : lf ≠ [] := by
  obtain ⟨_, m, hd, _⟩ := h
  cases hd <;> simp

theorem lf_pos {lf : List U8} {n : Nat} (h : LengthField lf n) : 0 < lf.length :=
  List.length_pos_iff.2 (lf_ne_nil h)

/-! ## One step -/

/-- What `parse_from_bytes` does behind a good header. -/
def body (fuel : Nat) (tag : U8) (content rest : List U8) : R (Except Error (Asn1 × List U8)) :=
  if tag = 0x02#8 then .ok (.ok (.integer content, rest))
  else if tag = 0x04#8 then .ok (.ok (.octetString content, rest))
  else if tag = 0x03#8 then
    match content with
    | [] => .error .index
    | u :: c => .ok (.ok (.bitString c u, rest))
  else if tag = 0x05#8 then .ok (.ok (.null, rest))
  else if tag = 0x06#8 then .ok (.ok (.objectIdentifier content, rest))
  else if tag = 0x30#8 then
    match sequenceLoop (parseFromBytes fuel) (content.length + 1) content [] with
    | .error p => .error p
    | .ok (.error e) => .ok (.error e)
    | .ok (.ok l) => .ok (.ok (.sequence l, rest))
  else .ok (.error (.unknownTag tag))

theorem parse_body (fuel : Nat) (tag : U8) (lf content rest : List U8) (h : LengthField lf content.length) :
    parseFromBytes (fuel + 1) (tag :: lf ++ (content ++ rest)) = body fuel tag content rest := by
  have hp := lf_pos h
  have e0 : idx (tag :: lf ++ (content ++ rest)) 0 = .ok tag := rfl
  have e1 := lengthField_ok tag lf (content ++ rest) _ h
  have e2 : slice (content ++ rest) 0 content.length = .ok content := by
    rw [slice_ok _ _ _ (by omega) (by simp)]; simp
  have e3 : slice (content ++ rest) content.length (content ++ rest).length = .ok rest := by
    rw [slice_to_end _ _ (by simp)]; simp
  unfold parseFromBytes
  rw [if_neg (by simp only [List.length_append, List.length_cons]; omega)]
  simp only [e0, e1, bind, Except.bind, pure, Except.pure]
  rw [if_neg (by simp)]
  unfold body
  simp only [e2, e3]
  split
  · rfl
  split
  · rfl
  split
  · cases content with
    | nil => rw [slice_err _ _ _ (by simp)]
    | cons u c =>
      have e4 : slice (u :: c ++ rest) 1 (u :: c).length = .ok c := by
        rw [slice_ok _ _ _ (by simp) (by simp)]; simp
      have e5 : idx (u :: c ++ rest) 0 = .ok u := rfl
      simp only [e4, e5]
  split
  · rfl
  split
  · rfl
  split
  · rcases sequenceLoop (parseFromBytes fuel) (content.length + 1) content [] with p | e | l <;> rfl
  · rfl

theorem parse_short (fuel : Nat) (bytes : List U8) (h : bytes.length ≤ 1) :
    parseFromBytes (fuel + 1) bytes = .ok (.error .tagHadNoLength) := by
  unfold parseFromBytes
  rw [if_pos h]
  rfl

theorem parse_too_little (fuel : Nat) (tag : U8) (lf rest : List U8) (n : Nat) (h : LengthField lf n)
    (hn : rest.length < n) :
    parseFromBytes (fuel + 1) (tag :: lf ++ rest) = .ok (.error (.tooLittleData tag n rest.length)) := by
  have hp := lf_pos h
  have e0 : idx (tag :: lf ++ rest) 0 = .ok tag := rfl
  have e1 := lengthField_ok tag lf rest _ h
  unfold parseFromBytes
  rw [if_neg (by simp only [List.length_append, List.length_cons]; omega)]
  simp only [e0, e1, bind, Except.bind, pure, Except.pure]
  rw [if_pos hn]

theorem parse_bad_length (fuel : Nat) (tag b : U8) (r : List U8) (p : Panic)
    (h : lengthField (tag :: b :: r) = .error p) : parseFromBytes (fuel + 1) (tag :: b :: r) = .error p := by
  have e0 : idx (tag :: b :: r) 0 = .ok tag := rfl
  unfold parseFromBytes
  rw [if_neg (by simp)]
  simp only [e0, h, bind, Except.bind]

/-- Every input is of one of these kinds. -/
theorem bytes_cases (bytes : List U8) :
    bytes.length ≤ 1 ∨
    (∃ tag b r, bytes = tag :: b :: r ∧ (128 + 16 < b.toNat ∨ 128 + r.length < b.toNat) ∧
      ∃ p, p ≠ .diverged ∧ lengthField bytes = .error p) ∨
    (∃ tag lf rest n, bytes = tag :: lf ++ rest ∧ LengthField lf n ∧ rest.length < n) ∨
    (∃ tag lf content rest, bytes = tag :: lf ++ (content ++ rest) ∧ LengthField lf content.length) := by
  rcases bytes with _ | ⟨tag, _ | ⟨b, r⟩⟩
  · exact Or.inl (by simp)
  · exact Or.inl (by simp)
  right
  rcases lengthField_cases tag b r with ⟨h1, p, h2, h3⟩ | ⟨lf, rest, n, h1, h2, _⟩
  · exact Or.inl ⟨tag, b, r, rfl, h1, p, h2, h3⟩
  · right
    by_cases hn : rest.length < n
    · exact Or.inl ⟨tag, lf, rest, n, by rw [h1]; rfl, h2, hn⟩
    · refine Or.inr ⟨tag, lf, rest.take n, rest.drop n, by rw [h1, List.take_append_drop]; rfl, ?_⟩
      rw [List.length_take, Nat.min_eq_left (by omega)]
      exact h2

/-! ## Accepted inputs -/

theorem Accepts.ne_nil {a : List U8} {t : Asn1} (h : Accepts a t) : a ≠ [] := by
  cases h <;> simp

theorem loop_sound (fuel : Nat)
    (ih : ∀ bytes t rest, parseFromBytes fuel bytes = .ok (.ok (t, rest)) → ∃ pre, bytes = pre ++ rest ∧ Accepts pre t)
    (k : Nat) (left : List U8) (acc l : List Asn1) (h : sequenceLoop (parseFromBytes fuel) k left acc = .ok (.ok l)) :
    ∃ l', l = acc ++ l' ∧ AcceptsAll left l' := by
  induction k generalizing left acc with
  | zero => cases h
  | succ k ihk =>
    unfold sequenceLoop at h
    by_cases hl : left = []
    · rw [if_neg (by simpa using hl)] at h
      have := Except.ok.inj (Except.ok.inj h)
      subst hl
      exact ⟨[], by simp [this], .nil⟩
    · rw [if_pos hl] at h
      simp only [bind, Except.bind] at h
      rcases hp : parseFromBytes fuel left with p | e | ⟨t, rest⟩
      · rw [hp] at h; cases h
      · rw [hp] at h; cases h
      · rw [hp] at h
        obtain ⟨pre, h1, h2⟩ := ih _ _ _ hp
        obtain ⟨l', h3, h4⟩ := ihk rest _ h
        refine ⟨t :: l', by rw [h3]; simp, ?_⟩
        rw [h1]
        exact .cons _ _ _ _ h2 h4

theorem parse_sound (fuel : Nat) (bytes : List U8) (t : Asn1) (rest : List U8)
    (h : parseFromBytes fuel bytes = .ok (.ok (t, rest))) : ∃ pre, bytes = pre ++ rest ∧ Accepts pre t := by
  induction fuel generalizing bytes t rest with
  | zero => cases h
  | succ fuel ih =>
    rcases bytes_cases bytes with h1 | ⟨tag, b, r, rfl, _, p, _, hp⟩ | ⟨tag, lf, rest', n, rfl, h1, h2⟩ |
      ⟨tag, lf, content, rest', rfl, h1⟩
    · rw [parse_short fuel bytes h1] at h; cases h
    · rw [parse_bad_length fuel tag b r p hp] at h; cases h
    · rw [parse_too_little fuel tag lf rest' n h1 h2] at h; cases h
    · rw [parse_body fuel tag lf content rest' h1] at h
      refine ⟨tag :: lf ++ content, ?_⟩
      unfold body at h
      split at h
      · rename_i ht; subst ht
        cases h
        exact ⟨by simp, .integer lf content h1⟩
      split at h
      · rename_i ht; subst ht
        cases h
        exact ⟨by simp, .octetString lf content h1⟩
      split at h
      · rename_i ht; subst ht
        cases content with
        | nil => cases h
        | cons u c =>
          cases h
          exact ⟨by simp, .bitString lf c u h1⟩
      split at h
      · rename_i ht; subst ht
        cases h
        exact ⟨by simp, .null lf content h1⟩
      split at h
      · rename_i ht; subst ht
        cases h
        exact ⟨by simp, .objectIdentifier lf content h1⟩
      split at h
      · rename_i ht; subst ht
        rcases hs : sequenceLoop (parseFromBytes fuel) (content.length + 1) content [] with p | e | l
        · rw [hs] at h; cases h
        · rw [hs] at h; cases h
        · rw [hs] at h
          cases h
          obtain ⟨l', h3, h4⟩ := loop_sound fuel ih _ _ _ _ hs
          rw [List.nil_append] at h3
          subst h3
          exact ⟨by simp, .sequence lf content _ h1 h4⟩
      · cases h

theorem loop_complete (fuel : Nat)
    (ih : ∀ pre t rest, Accepts pre t → pre.length < fuel → parseFromBytes fuel (pre ++ rest) = .ok (.ok (t, rest)))
    (k : Nat) (left : List U8) (acc l : List Asn1) (h : AcceptsAll left l) (hk : left.length < k)
    (hf : left.length < fuel) : sequenceLoop (parseFromBytes fuel) k left acc = .ok (.ok (acc ++ l)) := by
  induction k generalizing left acc l with
  | zero => omega
  | succ k ihk =>
    unfold sequenceLoop
    cases h with
    | nil => simp
    | cons a b t l' h1 h2 =>
      have hne := Accepts.ne_nil h1
      have hpos := List.length_pos_iff.2 hne
      rw [List.length_append] at hk hf
      rw [if_pos (by simp [hne])]
      simp only [ih a t b h1 (by omega), bind, Except.bind]
      rw [ihk b _ l' h2 (by omega) (by omega)]
      simp

theorem parse_complete (fuel : Nat) (pre : List U8) (t : Asn1) (rest : List U8) (h : Accepts pre t)
    (hf : pre.length < fuel) : parseFromBytes fuel (pre ++ rest) = .ok (.ok (t, rest)) := by
  induction fuel generalizing pre t rest with
  | zero => omega
  | succ fuel ih =>
    have hassoc : ∀ (tag : U8) (lf content : List U8), tag :: lf ++ content ++ rest = tag :: lf ++ (content ++ rest) := by
      intro tag lf content; simp
    cases h with
    | integer lf content h1 => rw [hassoc, parse_body _ _ _ _ _ h1]; rfl
    | octetString lf content h1 => rw [hassoc, parse_body _ _ _ _ _ h1]; rfl
    | bitString lf content u h1 => rw [hassoc, parse_body _ _ _ (u :: content) _ h1]; rfl
    | null lf content h1 => rw [hassoc, parse_body _ _ _ _ _ h1]; rfl
    | objectIdentifier lf content h1 => rw [hassoc, parse_body _ _ _ _ _ h1]; rfl
    | sequence lf content l h1 h2 =>
      have hp := lf_pos h1
      rw [hassoc, parse_body _ _ _ _ _ h1]
      simp only [List.length_append, List.length_cons] at hf
      unfold body
      rw [loop_complete fuel ih _ content [] l h2 (by omega) (by omega)]
      rfl

/-! ## Termination -/

theorem accepts_length (pre rest : List U8) (t : Asn1) (h : Accepts pre t) : rest.length < (pre ++ rest).length := by
  have := List.length_pos_iff.2 (Accepts.ne_nil h)
  simp only [List.length_append]
  omega

theorem loop_terminates (fuel : Nat) (ih : ∀ bytes, bytes.length < fuel → parseFromBytes fuel bytes ≠ .error .diverged)
    (k : Nat) (left : List U8) (acc : List Asn1) (hk : left.length < k) (hf : left.length < fuel) :
    sequenceLoop (parseFromBytes fuel) k left acc ≠ .error .diverged := by
  induction k generalizing left acc with
  | zero => omega
  | succ k ihk =>
    unfold sequenceLoop
    by_cases hl : left = []
    · rw [if_neg (by simpa using hl)]; simp
    · rw [if_pos hl]
      simp only [bind, Except.bind]
      rcases hp : parseFromBytes fuel left with p | e | ⟨t, rest⟩
      · simp only
        have := ih left hf
        rw [hp] at this
        intro h
        exact this (congrArg _ (Except.error.inj h))
      · simp
      · simp only
        obtain ⟨pre, h1, h2⟩ := parse_sound _ _ _ _ hp
        have := accepts_length pre rest t h2
        rw [← h1] at this
        exact ihk rest _ (by omega) (by omega)

theorem parse_terminates (fuel : Nat) (bytes : List U8) (hf : bytes.length < fuel) :
    parseFromBytes fuel bytes ≠ .error .diverged := by
  induction fuel generalizing bytes with
  | zero => omega
  | succ fuel ih =>
    rcases bytes_cases bytes with h1 | ⟨tag, b, r, rfl, _, p, h2, hp⟩ | ⟨tag, lf, rest', n, rfl, h1, h2⟩ |
      ⟨tag, lf, content, rest', rfl, h1⟩
    · rw [parse_short fuel bytes h1]; simp
    · rw [parse_bad_length fuel tag b r p hp]
      intro h
      exact h2 (Except.error.inj h)
    · rw [parse_too_little fuel tag lf rest' n h1 h2]; simp
    · have hpos := lf_pos h1
      simp only [List.length_append, List.length_cons] at hf
      rw [parse_body fuel tag lf content rest' h1]
      unfold body
      split
      · simp
      split
      · simp
      split
      · cases content <;> simp
      split
      · simp
      split
      · simp
      split
      · have := loop_terminates fuel ih (content.length + 1) content [] (by omega) (by omega)
        rcases hs : sequenceLoop (parseFromBytes fuel) (content.length + 1) content [] with p | e | l
        · rw [hs] at this
          intro h
          exact this (congrArg _ (Except.error.inj h))
        · simp
        · simp
      · simp

/-! ## Panics -/

/-! ## The fuel and the form of the length do not matter -/

theorem loop_mono (p q : List U8 → R (Except Error (Asn1 × List U8)))
    (hpq : ∀ b, p b ≠ .error .diverged → q b = p b) (k : Nat) (left : List U8) (acc : List Asn1)
    (h : sequenceLoop p k left acc ≠ .error .diverged) : sequenceLoop q k left acc = sequenceLoop p k left acc := by
  induction k generalizing left acc with
  | zero => exact absurd rfl h
  | succ k ih =>
    unfold sequenceLoop at h ⊢
    by_cases hl : left ≠ []
    · rw [if_pos hl] at h ⊢
      rw [if_pos hl]
      have h1 : p left ≠ .error .diverged := by
        intro hp
        rw [hp] at h
        exact h rfl
      rw [hpq left h1]
      cases hp : p left with
      | error e => rfl
      | ok r =>
        cases r with
        | error e => rfl
        | ok r =>
          rw [hp] at h
          exact ih _ _ h
    · rw [if_neg hl, if_neg hl]

theorem parse_mono (fuel : Nat) (bytes : List U8) (h : parseFromBytes fuel bytes ≠ .error .diverged) :
    parseFromBytes (fuel + 1) bytes = parseFromBytes fuel bytes := by
  induction fuel generalizing bytes with
  | zero => exact absurd rfl h
  | succ fuel ih =>
    rw [parseFromBytes]
    rw [parseFromBytes] at h ⊢
    by_cases h1 : bytes.length ≤ 1
    · simp only [if_pos h1]
    · simp only [if_neg h1, bind, Except.bind, pure, Except.pure] at h ⊢
      cases h2 : idx bytes 0 with
      | error e => rfl
      | ok tag =>
        simp only [h2] at h ⊢
        cases h3 : lengthField bytes with
        | error e => rfl
        | ok r =>
          simp only [h3] at h ⊢
          by_cases h4 : r.2 > r.1.length
          · simp only [if_pos h4]
          · simp only [if_neg h4] at h ⊢
            by_cases t1 : tag = 0x02#8
            · simp only [if_pos t1]
            by_cases t2 : tag = 0x04#8
            · simp only [if_neg t1, if_pos t2]
            by_cases t3 : tag = 0x03#8
            · simp only [if_neg t1, if_neg t2, if_pos t3]
            by_cases t4 : tag = 0x05#8
            · simp only [if_neg t1, if_neg t2, if_neg t3, if_pos t4]
            by_cases t5 : tag = 0x06#8
            · simp only [if_neg t1, if_neg t2, if_neg t3, if_neg t4, if_pos t5]
            by_cases t6 : tag = 0x30#8
            · simp only [if_neg t1, if_neg t2, if_neg t3, if_neg t4, if_neg t5, if_pos t6] at h ⊢
              cases h5 : slice r.1 0 r.2 with
              | error e => rfl
              | ok left =>
                simp only [h5] at h ⊢
                rw [loop_mono (parseFromBytes fuel) (parseFromBytes (fuel + 1)) ih]
                intro hd
                rw [hd] at h
                exact h rfl
            · simp only [if_neg t1, if_neg t2, if_neg t3, if_neg t4, if_neg t5, if_neg t6]

theorem parse_fuel (bytes : List U8) (f g : Nat) (hf : bytes.length < f) (hg : bytes.length < g) :
    parseFromBytes f bytes = parseFromBytes g bytes := by
  have key : ∀ d, parseFromBytes (bytes.length + 1 + d) bytes = parseFromBytes (bytes.length + 1) bytes := by
    intro d
    induction d with
    | zero => rfl
    | succ d ih =>
      rw [← Nat.add_assoc, parse_mono _ _ (parse_terminates _ _ (by omega)), ih]
  rw [show f = bytes.length + 1 + (f - bytes.length - 1) by omega, key,
    show g = bytes.length + 1 + (g - bytes.length - 1) by omega, key]

/-- Two length fields for the same number lead to the same result, whatever follows. -/
theorem same_length (tag : U8) (lf lf' rest : List U8) (n : Nat) (h : LengthField lf n) (h' : LengthField lf' n) :
    tryFrom (tag :: lf ++ rest) = tryFrom (tag :: lf' ++ rest) := by
  have hp := lf_pos h
  have hp' := lf_pos h'
  unfold tryFrom
  rw [parse_fuel (tag :: lf ++ rest) _ (lf.length + lf'.length + rest.length + 1 + 1)
      (by simp) (by simp only [List.cons_append, List.length_cons, List.length_append]; omega),
    parse_fuel (tag :: lf' ++ rest) _ (lf.length + lf'.length + rest.length + 1 + 1) (by simp)
      (by simp only [List.cons_append, List.length_cons, List.length_append]; omega)]
  have e : parseFromBytes (lf.length + lf'.length + rest.length + 1 + 1) (tag :: lf ++ rest) =
      parseFromBytes (lf.length + lf'.length + rest.length + 1 + 1) (tag :: lf' ++ rest) := by
    rw [parseFromBytes, parseFromBytes, lengthField_ok tag lf rest n h, lengthField_ok tag lf' rest n h',
      if_neg (by simp only [List.cons_append, List.length_cons, List.length_append]; omega),
      if_neg (by simp only [List.cons_append, List.length_cons, List.length_append]; omega)]
    rfl
  rw [e]

theorem loop_panics_sound (fuel : Nat)
    (ih : ∀ bytes p, bytes.length < fuel → parseFromBytes fuel bytes = .error p → Panics bytes)
    (k : Nat) (left : List U8) (acc : List Asn1) (p : Panic) (hk : left.length < k) (hf : left.length < fuel)
    (h : sequenceLoop (parseFromBytes fuel) k left acc = .error p) :
    ∃ pre bad l, left = pre ++ bad ∧ AcceptsAll pre l ∧ Panics bad := by
  induction k generalizing left acc with
  | zero => omega
  | succ k ihk =>
    unfold sequenceLoop at h
    by_cases hl : left = []
    · rw [if_neg (by simpa using hl)] at h; cases h
    · rw [if_pos hl] at h
      simp only [bind, Except.bind] at h
      rcases hp : parseFromBytes fuel left with p' | e | ⟨t, rest⟩
      · exact ⟨[], left, [], rfl, .nil, ih left p' hf hp⟩
      · rw [hp] at h; cases h
      · rw [hp] at h
        obtain ⟨pre, h1, h2⟩ := parse_sound _ _ _ _ hp
        have hlen := accepts_length pre rest t h2
        rw [← h1] at hlen
        obtain ⟨pre', bad, l, h3, h4, h5⟩ := ihk rest _ (by omega) (by omega) h
        exact ⟨pre ++ pre', bad, t :: l, by rw [h1, h3, List.append_assoc], .cons _ _ _ _ h2 h4, h5⟩

theorem parse_panics_sound (fuel : Nat) (bytes : List U8) (p : Panic) (hf : bytes.length < fuel)
    (h : parseFromBytes fuel bytes = .error p) : Panics bytes := by
  induction fuel generalizing bytes p with
  | zero => omega
  | succ fuel ih =>
    rcases bytes_cases bytes with h1 | ⟨tag, b, r, rfl, h1, p', _, hp⟩ | ⟨tag, lf, rest', n, rfl, h1, h2⟩ |
      ⟨tag, lf, content, rest', rfl, h1⟩
    · rw [parse_short fuel bytes h1] at h; cases h
    · rcases h1 with h1 | h1
      · exact .tooManyDigits tag b r h1
      · exact .missingDigits tag b r h1
    · rw [parse_too_little fuel tag lf rest' n h1 h2] at h; cases h
    · have hpos := lf_pos h1
      simp only [List.length_append, List.length_cons] at hf
      rw [parse_body fuel tag lf content rest' h1] at h
      unfold body at h
      split at h
      · cases h
      split at h
      · cases h
      split at h
      · rename_i ht; subst ht
        cases content with
        | nil => exact .emptyBitString lf rest' h1
        | cons u c => cases h
      split at h
      · cases h
      split at h
      · cases h
      split at h
      · rename_i ht; subst ht
        rcases hs : sequenceLoop (parseFromBytes fuel) (content.length + 1) content [] with p' | e | l
        · obtain ⟨pre, bad, l, h3, h4, h5⟩ :=
            loop_panics_sound fuel ih (content.length + 1) content [] p' (by omega) (by omega) hs
          subst h3
          rw [← List.append_assoc]
          exact .inSequence lf pre bad rest' l h1 h4 h5
        · rw [hs] at h; cases h
        · rw [hs] at h; cases h
      · cases h

theorem panics_ne_nil {bytes : List U8} (h : Panics bytes) : bytes ≠ [] := by
  cases h <;> simp

theorem loop_panics_complete (fuel : Nat)
    (ih : ∀ bytes, Panics bytes → bytes.length < fuel → ∃ p, parseFromBytes fuel bytes = .error p)
    (k : Nat) (pre bad : List U8) (acc l : List Asn1) (h : AcceptsAll pre l) (hb : Panics bad)
    (hk : (pre ++ bad).length < k) (hf : (pre ++ bad).length < fuel) :
    ∃ p, sequenceLoop (parseFromBytes fuel) k (pre ++ bad) acc = .error p := by
  induction k generalizing pre acc l with
  | zero => omega
  | succ k ihk =>
    unfold sequenceLoop
    rw [if_pos (by simp [panics_ne_nil hb])]
    cases h with
    | nil =>
      obtain ⟨p, hp⟩ := ih bad hb hf
      rw [List.nil_append, hp]
      exact ⟨p, rfl⟩
    | cons a b t l' h1 h2 =>
      have hpos := List.length_pos_iff.2 (Accepts.ne_nil h1)
      simp only [List.length_append] at hk hf
      rw [List.append_assoc, parse_complete fuel a t (b ++ bad) h1 (by omega)]
      simp only [bind, Except.bind]
      exact ihk b _ l' h2 (by rw [List.length_append]; omega) (by rw [List.length_append]; omega)

theorem parse_panics_complete (fuel : Nat) (bytes : List U8) (h : Panics bytes) (hf : bytes.length < fuel) :
    ∃ p, parseFromBytes fuel bytes = .error p := by
  induction fuel generalizing bytes with
  | zero => omega
  | succ fuel ih =>
    have hbad : ∀ (tag b : U8) (r : List U8), (128 + 16 < b.toNat ∨ 128 + r.length < b.toNat) →
        ∃ p, parseFromBytes (fuel + 1) (tag :: b :: r) = .error p := by
      intro tag b r hb
      rcases lengthField_cases tag b r with ⟨_, p, _, hp⟩ | ⟨_, _, _, _, _, hn⟩
      · exact ⟨p, parse_bad_length fuel tag b r p hp⟩
      · exact absurd hb hn
    cases h with
    | tooManyDigits tag b r hb => exact hbad tag b r (Or.inl hb)
    | missingDigits tag b r hb => exact hbad tag b r (Or.inr hb)
    | emptyBitString lf rest h1 => exact ⟨.index, parse_body fuel 0x03#8 lf [] rest h1⟩
    | inSequence lf pre bad rest l h1 h2 h3 =>
      have hpos := lf_pos h1
      simp only [List.length_append, List.length_cons] at hf
      rw [List.append_assoc (0x30#8 :: lf), parse_body fuel 0x30#8 lf (pre ++ bad) rest h1]
      obtain ⟨p, hp⟩ := loop_panics_complete fuel ih ((pre ++ bad).length + 1) pre bad [] l h2 h3 (by omega)
        (by rw [List.length_append]; omega)
      unfold body
      rw [hp]
      exact ⟨p, rfl⟩

/-! ## DER -/

theorem length_beDigits (n : Nat) : (beDigits n).length = (Spec.Big.big n).bytes.length := by
  unfold beDigits Spec.Big.big
  simp

theorem beVal_beDigits (n : Nat) : beVal (beDigits n) = n := by
  have := Big.val_big n
  unfold Spec.Big.val Spec.Big.big at this
  unfold beVal beDigits
  rw [List.reverse_reverse]
  exact this

theorem derLength_ok (n : Nat) (hn : n < 2 ^ 64) : LengthField (derLength n) n := by
  unfold derLength
  by_cases h : n < 128
  · rw [if_pos h]
    have e : (BitVec.ofNat 8 n).toNat = n := by rw [BitVec.toNat_ofNat, Nat.mod_eq_of_lt (by omega)]
    have := Declares.short (BitVec.ofNat 8 n) (by omega)
    rw [e] at this
    exact ⟨by simp, n, this, (Nat.mod_eq_of_lt hn).symm⟩
  · rw [if_neg h]
    have hl : (beDigits n).length ≤ 8 := by rw [length_beDigits, Big.length_le_iff]; omega
    have := Declares.long (BitVec.ofNat 8 (0x80 + (beDigits n).length)) (beDigits n)
      (by rw [BitVec.toNat_ofNat, Nat.mod_eq_of_lt (by omega)])
    rw [beVal_beDigits] at this
    exact ⟨by simp; omega, n, this, (Nat.mod_eq_of_lt hn).symm⟩

theorem length_tlv (tag : U8) (content : List U8) : content.length < (tlv tag content).length := by
  unfold tlv
  simp only [List.length_append, List.length_cons]
  omega

mutual
theorem der_accepts : (t : Asn1) → (der t).length < 2 ^ 64 → Accepts (der t) t
  | .integer b, h => by
    unfold der at h ⊢
    exact .integer _ _ (derLength_ok _ (by have := length_tlv 0x02#8 b; omega))
  | .octetString b, h => by
    unfold der at h ⊢
    exact .octetString _ _ (derLength_ok _ (by have := length_tlv 0x04#8 b; omega))
  | .bitString b u, h => by
    unfold der at h ⊢
    exact .bitString _ _ _ (derLength_ok _ (by have := length_tlv 0x03#8 (u :: b); omega))
  | .null, h => by
    unfold der at h ⊢
    exact .null _ [] (derLength_ok _ (by simp))
  | .objectIdentifier b, h => by
    unfold der at h ⊢
    exact .objectIdentifier _ _ (derLength_ok _ (by have := length_tlv 0x06#8 b; omega))
  | .sequence l, h => by
    unfold der at h ⊢
    have hl := length_tlv 0x30#8 (derAll l)
    exact .sequence _ _ _ (derLength_ok _ (by omega)) (derAll_accepts l (by omega))
theorem derAll_accepts : (l : List Asn1) → (derAll l).length < 2 ^ 64 → AcceptsAll (derAll l) l
  | [], _ => by unfold derAll; exact .nil
  | t :: l, h => by
    unfold derAll at h ⊢
    rw [List.length_append] at h
    exact .cons _ _ _ _ (der_accepts t (by omega)) (derAll_accepts l (by omega))
end

/-! ## `try_from` -/

theorem tryFrom_ok_iff (bytes : List U8) (t : Asn1) : tryFrom bytes = .ok (.ok t) ↔ Accepts bytes t := by
  unfold tryFrom
  constructor
  · intro h
    simp only [bind, Except.bind] at h
    rcases hp : parseFromBytes (bytes.length + 1) bytes with p | e | ⟨t', rest⟩
    · rw [hp] at h; cases h
    · rw [hp] at h; cases h
    · rw [hp] at h
      simp only at h
      by_cases hr : rest = []
      · rw [if_neg (by simpa using hr)] at h
        cases h
        obtain ⟨pre, h1, h2⟩ := parse_sound _ _ _ _ hp
        rw [h1, hr, List.append_nil]
        exact h2
      · rw [if_pos hr] at h; cases h
  · intro h
    have := parse_complete (bytes.length + 1) bytes t [] h (by omega)
    rw [List.append_nil] at this
    simp only [this, bind, Except.bind]
    rfl

theorem tryFrom_panics_iff (bytes : List U8) : (∃ p, tryFrom bytes = .error p) ↔ Panics bytes := by
  unfold tryFrom
  constructor
  · rintro ⟨p, h⟩
    simp only [bind, Except.bind] at h
    rcases hp : parseFromBytes (bytes.length + 1) bytes with p' | e | ⟨t', rest⟩
    · exact parse_panics_sound _ _ _ (by omega) hp
    · rw [hp] at h; cases h
    · rw [hp] at h
      simp only at h
      split at h <;> cases h
  · intro h
    obtain ⟨p, hp⟩ := parse_panics_complete (bytes.length + 1) bytes h (by omega)
    simp only [hp, bind, Except.bind]
    exact ⟨p, rfl⟩

theorem tryFrom_terminates (bytes : List U8) : tryFrom bytes ≠ .error .diverged := by
  unfold tryFrom
  simp only [bind, Except.bind]
  have := parse_terminates (bytes.length + 1) bytes (by omega)
  rcases hp : parseFromBytes (bytes.length + 1) bytes with p' | e | ⟨t', rest⟩
  · rw [hp] at this
    intro h
    exact this (congrArg _ (Except.error.inj h))
  · simp [pure, Except.pure]
  · simp only
    split <;> simp [pure, Except.pure]

end Verif.Model.Asn1
