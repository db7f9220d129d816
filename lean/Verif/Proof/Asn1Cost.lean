import Verif.Model.Asn1Cost
import Verif.Proof.Asn1Errors

/-! # What parsing ASN.1 uses -/

namespace Verif.Model.Asn1
open Verif Verif.Model.Oaep Verif.Spec.Asn1

theorem parseC_short (fuel : Nat) (bytes : List U8) (h : bytes.length ≤ 1) :
    parseC (fuel + 1) bytes = (parseFromBytes (fuel + 1) bytes, .leaf 0) := by
  have : ∃ p, lengthField bytes = .error p := by
    rcases bytes with _ | ⟨a, _ | ⟨b, r⟩⟩
    · exact ⟨_, rfl⟩
    · exact ⟨_, rfl⟩
    · simp at h
  obtain ⟨p, hp⟩ := this
  rw [parseC, hp]

theorem parseC_bad (fuel : Nat) (bytes : List U8) (p : Panic) (h : lengthField bytes = .error p) :
    parseC (fuel + 1) bytes = (parseFromBytes (fuel + 1) bytes, .leaf 0) := by
  rw [parseC, h]

theorem parseC_too_little (fuel : Nat) (tag : U8) (lf rest : List U8) (n : Nat) (h : LengthField lf n)
    (hn : rest.length < n) : parseC (fuel + 1) (tag :: lf ++ rest) = (parseFromBytes (fuel + 1) (tag :: lf ++ rest), .leaf 0) := by
  rw [parseC, lengthField_ok tag lf rest n h]
  simp only [if_pos hn]

theorem parseC_leaf (fuel : Nat) (tag : U8) (lf content rest : List U8) (h : LengthField lf content.length)
    (ht : tag ≠ 0x30#8) : parseC (fuel + 1) (tag :: lf ++ (content ++ rest)) =
      (parseFromBytes (fuel + 1) (tag :: lf ++ (content ++ rest)), .leaf (leafCopy tag content.length)) := by
  rw [parseC, lengthField_ok tag lf _ _ h]
  have e : idx (tag :: lf ++ (content ++ rest)) 0 = .ok tag := rfl
  simp only [e]
  rw [if_neg (by simp), if_neg (by simpa using ht)]
  rfl

theorem parseC_seq (fuel : Nat) (lf content rest : List U8) (h : LengthField lf content.length) :
    parseC (fuel + 1) (0x30#8 :: lf ++ (content ++ rest)) =
      (match (sequenceLoopC (parseC fuel) (content.length + 1) content [] ⟨0, 0, 0, 0⟩).1 with
          | .error p => .error p
          | .ok (.error e) => .ok (.error e)
          | .ok (.ok elements) => .ok (.ok (.sequence elements, rest)),
        .around content.length (sequenceLoopC (parseC fuel) (content.length + 1) content [] ⟨0, 0, 0, 0⟩).2) := by
  rw [parseC, lengthField_ok _ lf _ _ h]
  have e : idx (0x30#8 :: lf ++ (content ++ rest)) 0 = .ok 0x30#8 := rfl
  simp only [e]
  rw [if_neg (by simp), if_pos trivial]
  simp only [List.take_left, List.drop_left]
  rcases sequenceLoopC (parseC fuel) (content.length + 1) content [] ⟨0, 0, 0, 0⟩ with ⟨p | e | els, d⟩ <;> rfl

theorem loop_same (fuel : Nat) (ih : ∀ b, (parseC fuel b).1 = parseFromBytes fuel b) :
    ∀ (k : Nat) (left : List U8) (l : List Asn1) (c : Cost),
      (sequenceLoopC (parseC fuel) k left l c).1 = sequenceLoop (parseFromBytes fuel) k left l := by
  intro k
  induction k with
  | zero => intro left l c; rfl
  | succ k ihk =>
    intro left l c
    unfold sequenceLoopC sequenceLoop
    by_cases hl : left ≠ []
    · rw [if_pos hl, if_pos hl, ← ih left]
      rcases hp : parseC fuel left with ⟨p | e | ⟨t, r⟩, d⟩
      · rfl
      · rfl
      · simp only [bind, Except.bind]
        exact ihk _ _ _
    · rw [if_neg hl, if_neg hl]

/-- The parser with the account is the parser. -/
theorem parseC_same (fuel : Nat) (bytes : List U8) : (parseC fuel bytes).1 = parseFromBytes fuel bytes := by
  induction fuel generalizing bytes with
  | zero => rfl
  | succ fuel ih =>
    rcases bytes_cases bytes with h | ⟨tag, b, r, rfl, _, p, _, h⟩ | ⟨tag, lf, rest, n, rfl, h, hn⟩ | ⟨tag, lf, content, rest, rfl, h⟩
    · rw [parseC_short _ _ h]
    · rw [parseC_bad _ _ _ h]
    · rw [parseC_too_little _ _ _ _ _ h hn]
    · by_cases ht : tag = 0x30#8
      · subst ht
        rw [parseC_seq _ _ _ _ h, parse_body _ _ _ _ _ h]
        simp only [loop_same fuel ih]
        rfl
      · rw [parseC_leaf _ _ _ _ _ h ht]

/-- What is known after a call with `n` bytes of which `k` are used up. -/
structure Within (c : Cost) (k : Nat) : Prop where
  depth : c.depth ≤ c.calls
  copied : 4 * c.copied ≤ k * k
  held : 4 * c.held ≤ k * k

theorem Within.mono {c : Cost} {k m : Nat} (h : Within c k) (hk : k ≤ m) : Within c m :=
  ⟨h.depth, Nat.le_trans h.copied (Nat.mul_le_mul hk hk), Nat.le_trans h.held (Nat.mul_le_mul hk hk)⟩

theorem Within.after {c d : Cost} {k m : Nat} (h : Within c k) (h' : Within d m) : Within (c.after d) (k + m) := by
  obtain ⟨a1, a2, a3⟩ := h
  obtain ⟨b1, b2, b3⟩ := h'
  have e : (k + m) * (k + m) = k * k + m * m + 2 * (k * m) := by ring
  refine ⟨?_, ?_, ?_⟩
  · simp only [Cost.after]; omega
  · simp only [Cost.after]; rw [e]; omega
  · simp only [Cost.after]; rw [e]; omega

theorem Within.around {c : Cost} {n : Nat} (h : Within c n) : Within (c.around n) (n + 2) := by
  obtain ⟨a1, a2, a3⟩ := h
  have e : (n + 2) * (n + 2) = n * n + 4 * n + 4 := by ring
  refine ⟨?_, ?_, ?_⟩
  · simp only [Cost.around]; omega
  · simp only [Cost.around]; rw [e]; omega
  · simp only [Cost.around]; rw [e]; omega

theorem Within.leaf {n : Nat} : Within (.leaf n) (n + 2) := by
  have e : (n + 2) * (n + 2) = n * n + 4 * n + 4 := by ring
  refine ⟨?_, ?_, ?_⟩
  · simp [Cost.leaf]
  · simp only [Cost.leaf]; rw [e]; omega
  · simp [Cost.leaf]

theorem leafCopy_le (tag : U8) (n : Nat) : leafCopy tag n ≤ n := by
  unfold leafCopy
  split
  · exact Nat.le_refl _
  split
  · exact Nat.le_refl _
  split
  · omega
  split
  · exact Nat.le_refl _
  · omega

/-- The bounds for one call: for a call that returns a value in terms of the bytes it consumed, for others in terms of
its input. -/
def Bounds (bytes : List U8) (r : R (Except Error (Asn1 × List U8)) × Cost) : Prop :=
  match r.1 with
  | .ok (.ok (_, rest)) => ∃ k, rest.length + k = bytes.length ∧ 2 ≤ k ∧ 2 * r.2.calls ≤ k ∧ Within r.2 k
  | _ => 2 * r.2.calls ≤ bytes.length + 2 ∧ Within r.2 bytes.length ∨ bytes.length ≤ 1 ∧ r.2 = .leaf 0

theorem loop_bounds (fuel : Nat) (ih : ∀ b, Bounds b (parseC fuel b)) :
    ∀ (n : Nat) (left : List U8) (l : List Asn1) (c : Cost) (j : Nat), 2 * c.calls ≤ j → Within c j →
      (∀ els, (sequenceLoopC (parseC fuel) n left l c).1 = .ok (.ok els) →
        2 * (sequenceLoopC (parseC fuel) n left l c).2.calls ≤ j + left.length) ∧
      2 * (sequenceLoopC (parseC fuel) n left l c).2.calls ≤ j + left.length + 2 ∧
      Within (sequenceLoopC (parseC fuel) n left l c).2 (j + left.length) := by
  intro n
  induction n with
  | zero =>
    intro left l c j h1 h2
    exact ⟨fun els h => by simp [sequenceLoopC] at h, by simp only [sequenceLoopC]; omega, h2.mono (by omega)⟩
  | succ n ihn =>
    intro left l c j h1 h2
    unfold sequenceLoopC
    by_cases hl : left ≠ []
    · rw [if_pos hl]
      have hpos : 0 < left.length := List.length_pos_iff.2 hl
      have hb := ih left
      unfold Bounds at hb
      have hfail : ∀ d : Cost, (2 * d.calls ≤ left.length + 2 ∧ Within d left.length ∨ left.length ≤ 1 ∧ d = .leaf 0) →
          2 * (c.after d).calls ≤ j + left.length + 2 ∧ Within (c.after d) (j + left.length) := by
        intro d hd
        rcases hd with ⟨hd1, hd2⟩ | ⟨_, rfl⟩
        · exact ⟨by simp only [Cost.after]; omega, h2.after hd2⟩
        · refine ⟨by simp only [Cost.after, Cost.leaf]; omega, h2.after ⟨by simp [Cost.leaf], by simp [Cost.leaf], by simp [Cost.leaf]⟩⟩
      rcases hp : parseC fuel left with ⟨p | e | ⟨t, r⟩, d⟩
      · rw [hp] at hb
        exact ⟨fun els h => by simp at h, hfail d hb⟩
      · rw [hp] at hb
        exact ⟨fun els h => by simp at h, hfail d hb⟩
      · rw [hp] at hb
        obtain ⟨k, hk1, hk2, hk3, hk4⟩ := hb
        simp only at hk1 hk2 hk3 hk4
        have := ihn r (l ++ [t]) (c.after d) (j + k) (by simp only [Cost.after]; omega) (h2.after hk4)
        rw [show j + left.length = j + k + r.length by omega]
        exact this
    · rw [if_neg hl]
      exact ⟨fun _ _ => by simp only; omega, by simp only; omega, h2.mono (by omega)⟩

theorem parse_bounds (fuel : Nat) (bytes : List U8) : Bounds bytes (parseC fuel bytes) := by
  induction fuel generalizing bytes with
  | zero =>
    unfold Bounds parseC
    exact Or.inl ⟨by simp [Cost.leaf], ⟨by simp [Cost.leaf], by simp [Cost.leaf], by simp [Cost.leaf]⟩⟩
  | succ fuel ih =>
    have hz : ∀ n, Within (.leaf 0) n := fun n => ⟨by simp [Cost.leaf], by simp [Cost.leaf], by simp [Cost.leaf]⟩
    rcases bytes_cases bytes with h | ⟨tag, b, r, rfl, _, p, _, h⟩ | ⟨tag, lf, rest, n, rfl, h, hn⟩ | ⟨tag, lf, content, rest, rfl, h⟩
    · rw [parseC_short _ _ h, parse_short _ _ h]
      exact Or.inr ⟨h, rfl⟩
    · rw [parseC_bad _ _ _ h, parse_bad_length _ _ _ _ _ h]
      exact Or.inl ⟨by simp [Cost.leaf], hz _⟩
    · rw [parseC_too_little _ _ _ _ _ h hn, parse_too_little _ _ _ _ _ h hn]
      exact Or.inl ⟨by simp [Cost.leaf], hz _⟩
    · have hp := lf_pos h
      have hlen : (tag :: lf ++ (content ++ rest)).length = lf.length + 1 + content.length + rest.length := by
        simp only [List.length_append, List.length_cons]; omega
      by_cases ht : tag = 0x30#8
      · subst ht
        rw [parseC_seq _ _ _ _ h]
        obtain ⟨a1, a2, a3⟩ := loop_bounds fuel ih (content.length + 1) content [] ⟨0, 0, 0, 0⟩ 0 (by simp)
          ⟨by simp, by simp, by simp⟩
        generalize sequenceLoopC (parseC fuel) (content.length + 1) content [] ⟨0, 0, 0, 0⟩ = r at a1 a2 a3
        rw [Nat.zero_add] at a1 a2 a3
        rcases r with ⟨p | e | els, d⟩
        · refine Or.inl ⟨?_, a3.around.mono (by rw [hlen]; omega)⟩
          rw [hlen]; simp only [Cost.around] at a2 ⊢; omega
        · refine Or.inl ⟨?_, a3.around.mono (by rw [hlen]; omega)⟩
          rw [hlen]; simp only [Cost.around] at a2 ⊢; omega
        · have := a1 els rfl
          refine ⟨lf.length + 1 + content.length, by rw [hlen]; omega, by omega, ?_, a3.around.mono (by omega)⟩
          simp only [Cost.around] at this ⊢; omega
      · rw [parseC_leaf _ _ _ _ _ h ht, parse_body _ _ _ _ _ h]
        have hw : Within (.leaf (leafCopy tag content.length)) (lf.length + 1 + content.length) :=
          Within.leaf.mono (by have := leafCopy_le tag content.length; omega)
        have hf : 2 * (Cost.leaf (leafCopy tag content.length)).calls ≤ (tag :: lf ++ (content ++ rest)).length + 2 ∧
            Within (.leaf (leafCopy tag content.length)) (tag :: lf ++ (content ++ rest)).length :=
          ⟨by simp [Cost.leaf], hw.mono (by rw [hlen]; omega)⟩
        have hok : ∃ k, rest.length + k = (tag :: lf ++ (content ++ rest)).length ∧ 2 ≤ k ∧
            2 * (Cost.leaf (leafCopy tag content.length)).calls ≤ k ∧ Within (.leaf (leafCopy tag content.length)) k :=
          ⟨lf.length + 1 + content.length, by rw [hlen]; omega, by omega, by simp only [Cost.leaf]; omega, hw⟩
        unfold Bounds body
        split <;> rename_i heq
        · have : ‹List U8› = rest := by
            revert heq
            simp only
            repeat' split
            all_goals simp_all
          rw [this]; exact hok
        · exact Or.inl hf

/-! ## Exact costs of accepted inputs -/

theorem loop_calls (fuel : Nat) (ih : ∀ pre t rest, Accepts pre t → pre.length < fuel →
      (parseC fuel (pre ++ rest)).2.calls = values t ∧ (parseC fuel (pre ++ rest)).2.depth = depth t) :
    ∀ (n : Nat) (content : List U8) (acc l : List Asn1) (c : Cost), AcceptsAll content l → content.length < n →
      content.length < fuel →
      (sequenceLoopC (parseC fuel) n content acc c).2.calls = c.calls + valuesAll l ∧
      (sequenceLoopC (parseC fuel) n content acc c).2.depth = max c.depth (depthAll l) := by
  intro n
  induction n with
  | zero => intro content acc l c _ h _; omega
  | succ n ihn =>
    intro content acc l c h hn hf
    cases h with
    | nil => simp [sequenceLoopC, valuesAll, depthAll]
    | cons pre rest t l h1 h2 =>
      have hpos := List.length_pos_iff.2 (Accepts.ne_nil h1)
      simp only [List.length_append] at hn hf
      obtain ⟨a1, a2⟩ := ih pre t rest h1 (by omega)
      have hres := parseC_same fuel (pre ++ rest)
      rw [parse_complete fuel pre t rest h1 (by omega)] at hres
      unfold sequenceLoopC
      rw [if_pos (by simp [Accepts.ne_nil h1])]
      rcases hp : parseC fuel (pre ++ rest) with ⟨r, d⟩
      rw [hp] at hres a1 a2
      simp only at hres a1 a2
      subst hres
      obtain ⟨b1, b2⟩ := ihn rest (acc ++ [t]) l (c.after d) h2 (by omega) (by omega)
      simp only
      rw [b1, b2]
      simp only [Cost.after, valuesAll, depthAll, a1, a2]
      omega

theorem parse_calls (fuel : Nat) (pre : List U8) (t : Asn1) (rest : List U8) (h : Accepts pre t) (hf : pre.length < fuel) :
    (parseC fuel (pre ++ rest)).2.calls = values t ∧ (parseC fuel (pre ++ rest)).2.depth = depth t := by
  induction fuel generalizing pre t rest with
  | zero => omega
  | succ fuel ih =>
    have hassoc : ∀ (tag : U8) (lf content : List U8), tag :: lf ++ content ++ rest = tag :: lf ++ (content ++ rest) := by
      intro tag lf content; simp
    cases h with
    | integer lf content h1 => rw [hassoc, parseC_leaf _ _ _ _ _ h1 (by decide)]; exact ⟨rfl, rfl⟩
    | octetString lf content h1 => rw [hassoc, parseC_leaf _ _ _ _ _ h1 (by decide)]; exact ⟨rfl, rfl⟩
    | bitString lf content u h1 =>
      rw [hassoc, parseC_leaf _ _ _ (u :: content) _ h1 (by decide)]; exact ⟨rfl, rfl⟩
    | null lf content h1 => rw [hassoc, parseC_leaf _ _ _ _ _ h1 (by decide)]; exact ⟨rfl, rfl⟩
    | objectIdentifier lf content h1 => rw [hassoc, parseC_leaf _ _ _ _ _ h1 (by decide)]; exact ⟨rfl, rfl⟩
    | sequence lf content l h1 h2 =>
      have hp := lf_pos h1
      rw [hassoc, parseC_seq _ _ _ _ h1]
      simp only [List.length_append, List.length_cons] at hf
      obtain ⟨a1, a2⟩ := loop_calls fuel (fun pre t rest h hf => ih pre t rest h hf) (content.length + 1) content [] l
        ⟨0, 0, 0, 0⟩ h2 (by omega) (by omega)
      simp only [Cost.around, a1, a2, values, depth]
      omega

theorem loop_copied (fuel : Nat) (ih : ∀ t rest, (der t).length < 2 ^ 64 → (der t).length < fuel →
      (parseC fuel (der t ++ rest)).2.copied = contents t ∧ (parseC fuel (der t ++ rest)).2.held = nested t) :
    ∀ (l : List Asn1) (n : Nat) (acc : List Asn1) (c : Cost), (derAll l).length < 2 ^ 64 → (derAll l).length < n →
      (derAll l).length < fuel →
      (sequenceLoopC (parseC fuel) n (derAll l) acc c).2.copied = c.copied + contentsAll l ∧
      (sequenceLoopC (parseC fuel) n (derAll l) acc c).2.held = max c.held (nestedAll l) := by
  intro l
  induction l with
  | nil =>
    intro n acc c _ h _
    obtain ⟨n, rfl⟩ : ∃ k, n = k + 1 := ⟨n - 1, by omega⟩
    simp [sequenceLoopC, derAll, contentsAll, nestedAll]
  | cons t l ihl =>
    intro n acc c hs hn hf
    obtain ⟨n, rfl⟩ : ∃ k, n = k + 1 := ⟨n - 1, by omega⟩
    have hd : derAll (t :: l) = der t ++ derAll l := by simp only [derAll]
    rw [hd] at hs hn hf ⊢
    simp only [List.length_append] at hs hn hf
    have h1 := der_accepts t (by omega)
    have hpos := List.length_pos_iff.2 (Accepts.ne_nil h1)
    obtain ⟨a1, a2⟩ := ih t (derAll l) (by omega) (by omega)
    have hres := parseC_same fuel (der t ++ derAll l)
    rw [parse_complete fuel _ t _ h1 (by omega)] at hres
    unfold sequenceLoopC
    rw [if_pos (by simp [Accepts.ne_nil h1])]
    rcases hp : parseC fuel (der t ++ derAll l) with ⟨r, d⟩
    rw [hp] at hres a1 a2
    simp only at hres a1 a2
    subst hres
    obtain ⟨b1, b2⟩ := ihl n (acc ++ [t]) (c.after d) (by omega) (by omega) (by omega)
    simp only
    rw [b1, b2]
    simp only [Cost.after, contentsAll, nestedAll, a1, a2]
    omega

theorem parse_copied (fuel : Nat) (t : Asn1) (rest : List U8) (hs : (der t).length < 2 ^ 64) (hf : (der t).length < fuel) :
    (parseC fuel (der t ++ rest)).2.copied = contents t ∧ (parseC fuel (der t ++ rest)).2.held = nested t := by
  induction fuel generalizing t rest with
  | zero => omega
  | succ fuel ih =>
    have hassoc : ∀ (tag : U8) (content : List U8), tlv tag content ++ rest =
        tag :: derLength content.length ++ (content ++ rest) := by
      intro tag content; simp [tlv]
    have hl : ∀ (tag : U8) (content : List U8), der t = tlv tag content → LengthField (derLength content.length) content.length := by
      intro tag content h
      rw [h] at hs
      exact derLength_ok _ (by have := length_tlv tag content; omega)
    have hleaf : ∀ (tag : U8) (content : List U8), der t = tlv tag content → tag ≠ 0x30#8 →
        (parseC (fuel + 1) (der t ++ rest)).2 = .leaf (leafCopy tag content.length) := by
      intro tag content h ht
      rw [h, hassoc, parseC_leaf _ _ _ _ _ (hl tag content h) ht]
    cases t with
    | integer b => rw [hleaf 0x02#8 b (by simp only [der]) (by decide)]; exact ⟨rfl, rfl⟩
    | octetString b => rw [hleaf 0x04#8 b (by simp only [der]) (by decide)]; exact ⟨rfl, rfl⟩
    | bitString b u => rw [hleaf 0x03#8 (u :: b) (by simp only [der]) (by decide)]; exact ⟨rfl, rfl⟩
    | null => rw [hleaf 0x05#8 [] (by simp only [der]) (by decide)]; exact ⟨rfl, rfl⟩
    | objectIdentifier b => rw [hleaf 0x06#8 b (by simp only [der]) (by decide)]; exact ⟨rfl, rfl⟩
    | sequence l =>
      have hd : der (.sequence l) = tlv 0x30#8 (derAll l) := by simp only [der]
      have h1 := hl _ _ hd
      have hp := lf_pos h1
      rw [hd] at hs hf ⊢
      have := length_tlv 0x30#8 (derAll l)
      have hlen : (tlv 0x30#8 (derAll l)).length = (derLength (derAll l).length).length + 1 + (derAll l).length := by
        simp [tlv]; omega
      rw [hassoc, parseC_seq _ _ _ _ h1]
      obtain ⟨a1, a2⟩ := loop_copied fuel (fun t rest h hf => ih t rest h hf) l ((derAll l).length + 1) [] ⟨0, 0, 0, 0⟩
        (by omega) (by omega) (by omega)
      simp only [Cost.around, a1, a2, contents, nested]
      omega

end Verif.Model.Asn1
