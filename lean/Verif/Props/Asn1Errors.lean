import Verif.Proof.Asn1Errors

/-! # C95, C96: what ASN.1 inputs cost, and what exactly is rejected -/

namespace Verif.Props
open Verif Verif.Model.Asn1 Verif.Spec.Asn1

/-! ## C95 -/

/-- C95: a parsed tree is never larger than its input: every value costs at least two input bytes (tag and length), and every
byte that is stored in the tree is a byte of the input. So no small file expands into a large tree. -/
theorem C95_no_amplification (bytes : List U8) (t : Asn1) (h : tryFrom bytes = .ok (.ok t)) :
    2 * nodes t + stored t ≤ bytes.length := size_bound ((tryFrom_ok_iff _ _).1 h)

example : 2 * nodes (.sequence [.integer [1#8, 4#8], .null]) + stored (.sequence [.integer [1#8, 4#8], .null]) ≤
    [0x30#8, 6#8, 2#8, 2#8, 1#8, 4#8, 5#8, 0#8].length := C95_no_amplification _ _ rfl

/-- C95: hence the nesting depth (the depth of the parser's recursion) is at most half the input length … -/
theorem C95_depth (bytes : List U8) (t : Asn1) (h : tryFrom bytes = .ok (.ok t)) : 2 * depth t ≤ bytes.length := by
  have h1 := C95_no_amplification bytes t h
  have h2 := depth_le_nodes t
  omega

/-- C95: … but apart from that it is not limited: a file of about ten bytes per level reaches every depth. (The real parser
recurses once per level on the stack, which is not part of the model.) -/
theorem C95_no_depth_limit (k : Nat) (hk : k < 2 ^ 60) :
    ∃ bytes t, tryFrom bytes = .ok (.ok t) ∧ depth t = k + 1 ∧ bytes.length ≤ 10 * k + 2 := by
  have h := length_der_nest k hk
  exact ⟨der (nest k), nest k, (tryFrom_ok_iff _ _).2 (der_accepts _ (by omega)), depth_nest k, h⟩

/-- Not vacuous, and the bound is reached. -/
example : tryFrom [0x30#8, 6#8, 2#8, 2#8, 1#8, 4#8, 5#8, 0#8] = .ok (.ok (.sequence [.integer [1#8, 4#8], .null])) ∧
    2 * nodes (.sequence [.integer [1#8, 4#8], .null]) + stored (.sequence [.integer [1#8, 4#8], .null]) = 8 := by
  constructor <;> rfl
example : depth (.sequence [.integer [1#8, 4#8], .sequence [.null]]) = 3 := by rfl

/-! ## C96 -/

/-- C96: the errors of the parser, exactly: each rejected input and the reason that is reported for it. -/
theorem C96_error_iff (bytes : List U8) (e : Error) : tryFrom bytes = .ok (.error e) ↔
    Fails bytes e ∨ e = .extraBytes ∧ ∃ a r t, bytes = a ++ r ∧ Accepts a t ∧ r ≠ [] := tryFrom_error_iff bytes e

/-- C96: every input is accepted, rejected, rejected because of trailing bytes, or panics; exactly one of the four. -/
theorem C96_total (bytes : List U8) :
    ((∃ t, Accepts bytes t) ∨ (∃ e, Fails bytes e) ∨ (∃ a r t, bytes = a ++ r ∧ Accepts a t ∧ r ≠ []) ∨ Panics bytes) ∧
    ¬ ((∃ t, Accepts bytes t) ∧ ∃ e, Fails bytes e) ∧ ¬ ((∃ t, Accepts bytes t) ∧ Panics bytes) ∧
    ¬ ((∃ e, Fails bytes e) ∧ Panics bytes) ∧
    ¬ ((∃ a r t, bytes = a ++ r ∧ Accepts a t ∧ r ≠ []) ∧
      ((∃ t, Accepts bytes t) ∨ (∃ e, Fails bytes e) ∨ Panics bytes)) := by
  have hx : ∀ a r t, Accepts a t → r ≠ [] → tryFrom (a ++ r) = .ok (.error .extraBytes) := fun a r t h1 h2 =>
    (C96_error_iff _ _).2 (Or.inr ⟨rfl, a, r, t, rfl, h1, h2⟩)
  have hf : ∀ e, Fails bytes e → e ≠ .extraBytes := by
    rintro e h rfl
    cases h
  refine ⟨?_, ?_, ?_, ?_, ?_⟩
  · rcases h : tryFrom bytes with p | e | t
    · exact Or.inr (Or.inr (Or.inr ((tryFrom_panics_iff bytes).1 ⟨p, h⟩)))
    · rcases (C96_error_iff bytes e).1 h with h | ⟨_, h⟩
      · exact Or.inr (Or.inl ⟨e, h⟩)
      · exact Or.inr (Or.inr (Or.inl h))
    · exact Or.inl ⟨t, (tryFrom_ok_iff bytes t).1 h⟩
  · rintro ⟨⟨t, h1⟩, e, h2⟩
    have h1 := (tryFrom_ok_iff bytes t).2 h1
    rw [(C96_error_iff bytes e).2 (Or.inl h2)] at h1
    cases h1
  · rintro ⟨⟨t, h1⟩, h2⟩
    obtain ⟨p, h2⟩ := (tryFrom_panics_iff bytes).2 h2
    rw [(tryFrom_ok_iff bytes t).2 h1] at h2
    cases h2
  · rintro ⟨⟨e, h1⟩, h2⟩
    obtain ⟨p, h2⟩ := (tryFrom_panics_iff bytes).2 h2
    rw [(C96_error_iff bytes e).2 (Or.inl h1)] at h2
    cases h2
  · rintro ⟨⟨a, r, t, rfl, h1, h2⟩, ⟨u, h3⟩ | ⟨e, h3⟩ | h3⟩
    · have := hx a r t h1 h2
      rw [(tryFrom_ok_iff _ u).2 h3] at this
      cases this
    · have := hx a r t h1 h2
      rw [(C96_error_iff _ e).2 (Or.inl h3)] at this
      exact hf e h3 (Except.error.inj (Except.ok.inj this))
    · obtain ⟨p, h3⟩ := (tryFrom_panics_iff _).2 h3
      rw [hx a r t h1 h2] at h3
      cases h3

/-- Not vacuous: one input of each kind of error. -/
example : Fails [2#8] .tagHadNoLength := .noLength _ (by decide)
example : Fails [0x30#8, 5#8, 5#8, 0#8, 9#8, 1#8, 7#8] (.inSequence (.unknownTag 9#8)) :=
  .inSequence [5#8] [5#8, 0#8] [9#8, 1#8, 7#8] [] [.null] _ ⟨by decide, 5, .short 5#8 (by decide), rfl⟩
    (.cons [5#8, 0#8] [] _ [] (.null [0#8] [] ⟨by decide, 0, .short 0#8 (by decide), rfl⟩) .nil) (by simp)
    (.unknownTag 9#8 [1#8] [7#8] 1 ⟨by decide, 1, .short 1#8 (by decide), rfl⟩ (by decide) (by decide))
example : tryFrom [0x30#8, 5#8, 5#8, 0#8, 9#8, 1#8, 7#8] = .ok (.error (.inSequence (.unknownTag 9#8))) := by rfl
example : tryFrom [0x30#8, 4#8, 5#8, 0#8, 2#8, 1#8] = .ok (.error (.inSequence (.tooLittleData 2#8 1 0))) := by rfl

end Verif.Props
