import Verif.Proof.Asn1
import Verif.Spec.Asn1Errors

/-! # Rejected ASN.1 inputs, and the size of a tree -/

namespace Verif.Model.Asn1
open Verif Verif.Model.Oaep Verif.Spec.Asn1

/-! ## Errors -/

theorem loop_fails_sound (fuel : Nat)
    (ih : ∀ bytes e, bytes.length < fuel → parseFromBytes fuel bytes = .ok (.error e) → Fails bytes e)
    (k : Nat) (left : List U8) (acc : List Asn1) (e : Error) (hk : left.length < k) (hf : left.length < fuel)
    (h : sequenceLoop (parseFromBytes fuel) k left acc = .ok (.error e)) :
    ∃ pre bad l e', left = pre ++ bad ∧ AcceptsAll pre l ∧ bad ≠ [] ∧ Fails bad e' ∧ e = .inSequence e' := by
  induction k generalizing left acc with
  | zero => omega
  | succ k ihk =>
    unfold sequenceLoop at h
    by_cases hl : left = []
    · rw [if_neg (by simpa using hl)] at h; cases h
    · rw [if_pos hl] at h
      simp only [bind, Except.bind] at h
      rcases hp : parseFromBytes fuel left with p' | e' | ⟨t, rest⟩
      · rw [hp] at h; cases h
      · rw [hp] at h
        have := Except.error.inj (Except.ok.inj h)
        exact ⟨[], left, [], e', rfl, .nil, hl, ih left e' hf hp, this.symm⟩
      · rw [hp] at h
        obtain ⟨pre, h1, h2⟩ := parse_sound _ _ _ _ hp
        have hlen := accepts_length pre rest t h2
        rw [← h1] at hlen
        obtain ⟨pre', bad, l, e', h3, h4, h5⟩ := ihk rest _ (by omega) (by omega) h
        exact ⟨pre ++ pre', bad, t :: l, e', by rw [h1, h3, List.append_assoc], .cons _ _ _ _ h2 h4, h5⟩

theorem parse_fails_sound (fuel : Nat) (bytes : List U8) (e : Error) (hf : bytes.length < fuel)
    (h : parseFromBytes fuel bytes = .ok (.error e)) : Fails bytes e := by
  induction fuel generalizing bytes e with
  | zero => omega
  | succ fuel ih =>
    rcases bytes_cases bytes with h1 | ⟨tag, b, r, rfl, h1, p', _, hp⟩ | ⟨tag, lf, rest', n, rfl, h1, h2⟩ |
      ⟨tag, lf, content, rest', rfl, h1⟩
    · rw [parse_short fuel bytes h1] at h; cases h; exact .noLength _ h1
    · rw [parse_bad_length fuel tag b r p' hp] at h; cases h
    · rw [parse_too_little fuel tag lf rest' n h1 h2] at h; cases h; exact .tooLittleData _ _ _ _ h1 h2
    · have hpos := lf_pos h1
      simp only [List.length_append, List.length_cons] at hf
      rw [parse_body fuel tag lf content rest' h1] at h
      unfold body at h
      split at h
      · cases h
      rename_i t2
      split at h
      · cases h
      rename_i t4
      split at h
      · cases content <;> cases h
      rename_i t3
      split at h
      · cases h
      rename_i t5
      split at h
      · cases h
      rename_i t6
      split at h
      · rename_i ht; subst ht
        rcases hs : sequenceLoop (parseFromBytes fuel) (content.length + 1) content [] with p' | e' | l
        · rw [hs] at h; cases h
        · rw [hs] at h
          cases h
          obtain ⟨pre, bad, l, e', h3, h4, h5, h6, h7⟩ :=
            loop_fails_sound fuel ih (content.length + 1) content [] e (by omega) (by omega) hs
          subst h3; subst h7
          rw [← List.append_assoc]
          exact .inSequence lf pre bad rest' l e' h1 h4 h5 h6
        · rw [hs] at h; cases h
      · rename_i t30
        cases h
        refine .unknownTag tag lf _ _ h1 (by simp) ?_
        simp [knownTags, t2, t3, t4, t5, t6, t30]

theorem loop_fails_complete (fuel : Nat)
    (ih : ∀ bytes e, Fails bytes e → bytes.length < fuel → parseFromBytes fuel bytes = .ok (.error e))
    (k : Nat) (pre bad : List U8) (acc l : List Asn1) (e : Error) (h : AcceptsAll pre l) (hne : bad ≠ []) (hb : Fails bad e)
    (hk : (pre ++ bad).length < k) (hf : (pre ++ bad).length < fuel) :
    sequenceLoop (parseFromBytes fuel) k (pre ++ bad) acc = .ok (.error (.inSequence e)) := by
  induction k generalizing pre acc l with
  | zero => omega
  | succ k ihk =>
    unfold sequenceLoop
    rw [if_pos (by simp [hne])]
    cases h with
    | nil =>
      rw [List.nil_append, ih bad e hb hf]
      rfl
    | cons a b t l' h1 h2 =>
      have hpos := List.length_pos_iff.2 (Accepts.ne_nil h1)
      simp only [List.length_append] at hk hf
      rw [List.append_assoc, parse_complete fuel a t (b ++ bad) h1 (by omega)]
      simp only [bind, Except.bind]
      exact ihk b _ l' h2 (by rw [List.length_append]; omega) (by rw [List.length_append]; omega)

theorem parse_fails_complete (fuel : Nat) (bytes : List U8) (e : Error) (h : Fails bytes e) (hf : bytes.length < fuel) :
    parseFromBytes fuel bytes = .ok (.error e) := by
  induction fuel generalizing bytes e with
  | zero => omega
  | succ fuel ih =>
    cases h with
    | noLength _ h1 => exact parse_short fuel bytes h1
    | tooLittleData tag lf rest n h1 h2 => exact parse_too_little fuel tag lf rest n h1 h2
    | unknownTag tag lf rest n h1 h2 h3 =>
      have hn : (rest.take n).length = n := by rw [List.length_take, Nat.min_eq_left h2]
      rw [← List.take_append_drop n rest, parse_body fuel tag lf (rest.take n) (rest.drop n) (by rw [hn]; exact h1)]
      simp only [knownTags, List.mem_cons, List.not_mem_nil, not_or, or_false] at h3
      obtain ⟨t2, t3, t4, t5, t6, t30⟩ := h3
      unfold body
      rw [if_neg t2, if_neg t4, if_neg t3, if_neg t5, if_neg t6, if_neg t30]
    | inSequence lf pre bad rest l e' h1 h2 h3 h4 =>
      have hpos := lf_pos h1
      simp only [List.length_append, List.length_cons] at hf
      rw [List.append_assoc (0x30#8 :: lf), parse_body fuel 0x30#8 lf (pre ++ bad) rest h1]
      have hp := loop_fails_complete fuel ih ((pre ++ bad).length + 1) pre bad [] l e' h2 h3 h4 (by omega)
        (by rw [List.length_append]; omega)
      unfold body
      rw [hp]
      rfl

theorem tryFrom_error_iff (bytes : List U8) (e : Error) : tryFrom bytes = .ok (.error e) ↔
    Fails bytes e ∨ e = .extraBytes ∧ ∃ a r t, bytes = a ++ r ∧ Accepts a t ∧ r ≠ [] := by
  unfold tryFrom
  constructor
  · intro h
    simp only [bind, Except.bind] at h
    rcases hp : parseFromBytes (bytes.length + 1) bytes with p' | e' | ⟨t', rest⟩
    · rw [hp] at h; cases h
    · rw [hp] at h
      cases h
      exact Or.inl (parse_fails_sound _ _ _ (by omega) hp)
    · rw [hp] at h
      simp only at h
      by_cases hr : rest = []
      · rw [if_neg (by simpa using hr)] at h; cases h
      · rw [if_pos hr] at h
        cases h
        obtain ⟨pre, h1, h2⟩ := parse_sound _ _ _ _ hp
        exact Or.inr ⟨rfl, pre, rest, t', h1, h2, hr⟩
  · rintro (h | ⟨rfl, a, r, t, rfl, h1, h2⟩)
    · simp only [parse_fails_complete (bytes.length + 1) bytes e h (by omega), bind, Except.bind]
      rfl
    · rw [parse_complete ((a ++ r).length + 1) a t r h1 (by rw [List.length_append]; omega)]
      simp only [bind, Except.bind]
      rw [if_pos h2]
      rfl

/-! ## Sizes -/

mutual
theorem size_bound {bytes : List U8} {t : Asn1} : Accepts bytes t → 2 * nodes t + stored t ≤ bytes.length
  | .integer lf content h => by
    have := lf_pos h
    simp only [nodes, stored, List.length_append, List.length_cons]; omega
  | .octetString lf content h => by
    have := lf_pos h
    simp only [nodes, stored, List.length_append, List.length_cons]; omega
  | .bitString lf content u h => by
    have := lf_pos h
    simp only [nodes, stored, List.length_append, List.length_cons]; omega
  | .null lf content h => by
    have := lf_pos h
    simp only [nodes, stored, List.length_append, List.length_cons]; omega
  | .objectIdentifier lf content h => by
    have := lf_pos h
    simp only [nodes, stored, List.length_append, List.length_cons]; omega
  | .sequence lf content l h h2 => by
    have := lf_pos h
    have := size_bound_all h2
    simp only [nodes, stored, List.length_append, List.length_cons]; omega
theorem size_bound_all {bytes : List U8} {l : List Asn1} : AcceptsAll bytes l → 2 * nodesAll l + storedAll l ≤ bytes.length
  | .nil => by simp [nodesAll, storedAll]
  | .cons a b t l h1 h2 => by
    have := size_bound h1
    have := size_bound_all h2
    simp only [nodesAll, storedAll, List.length_append]; omega
end

mutual
theorem depth_le_nodes : (t : Asn1) → depth t ≤ nodes t
  | .integer _ | .octetString _ | .bitString _ _ | .null | .objectIdentifier _ => by simp [depth, nodes]
  | .sequence l => by have := depthAll_le_nodes l; simp only [depth, nodes]; omega
theorem depthAll_le_nodes : (l : List Asn1) → depthAll l ≤ nodesAll l
  | [] => by simp [depthAll]
  | t :: l => by
    have := depth_le_nodes t
    have := depthAll_le_nodes l
    simp only [depthAll, nodesAll]; omega
end

/-- A sequence in a sequence in a sequence … -/
def nest : Nat → Asn1
  | 0 => .null
  | k + 1 => .sequence [nest k]

theorem depth_nest (k : Nat) : depth (nest k) = k + 1 := by
  induction k with
  | zero => rfl
  | succ k ih => simp only [nest, depth, depthAll, ih]; omega

theorem length_derLength (n : Nat) (hn : n < 2 ^ 64) : (derLength n).length ≤ 9 := by
  unfold derLength
  split
  · simp
  · have hl : (beDigits n).length ≤ 8 := by rw [length_beDigits, Big.length_le_iff]; omega
    simp; omega

theorem length_der_nest (k : Nat) (hk : k < 2 ^ 60) : (der (nest k)).length ≤ 10 * k + 2 := by
  induction k with
  | zero => decide +kernel
  | succ k ih =>
    have := ih (by omega)
    have h9 := length_derLength (der (nest k)).length (by omega)
    simp only [nest, der, derAll, tlv, List.append_nil, List.length_append, List.length_cons]
    omega

end Verif.Model.Asn1
