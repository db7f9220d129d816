import Verif.Proof.TextWhy
import Verif.Props.KeyErrors
import Verif.Props.PemErrors
import Verif.Props.Big

/-! # C113: the texts of the errors -/

namespace Verif.Props
open Verif Verif.Model.Text
open _root_.Verif.Model.Asn1 (Asn1)
open _root_.Verif.Model.Pem (PEM)
open _root_.Verif.Spec.Asn1 (Accepts)
open _root_.Verif.Spec.Text (Unreadable PrivateComplaint PublicComplaint shown number)

/-- C113: the message for bytes that are not an ASN.1 value, exactly. -/
theorem C113_asn1 (bytes : List U8) (s : List Char) :
    message asn1Error (Model.Asn1.tryFrom bytes) = some s ↔ Unreadable bytes s := by
  rw [message_iff]
  simp only [Model.RsaAsn1.rejected_iff]
  exact unreadable_iff bytes s

/-- C113: the message for a PEM that is not an RSA private key, exactly. -/
theorem C113_private (pem : PEM) (s : List Char) : message keyError (Model.Pem.privateKeyTryFrom pem) = some s ↔
    (pem.label ≠ "PRIVATE KEY".toList ∧ s = "must be a private key".toList) ∨
    (pem.label = "PRIVATE KEY".toList ∧ (Unreadable pem.data s ∨ ∃ t, Accepts pem.data t ∧ PrivateComplaint t s)) := by
  rw [message_iff]
  simp only [C98_private_error_iff]
  constructor
  · rintro ⟨e, ⟨h, rfl⟩ | ⟨h, ⟨e', h', rfl⟩ | ⟨t, h1, h2⟩⟩, rfl⟩
    · exact Or.inl ⟨h, by decide +kernel⟩
    · exact Or.inr ⟨h, Or.inl ((unreadable_iff _ _).1 ⟨e', h', rfl⟩)⟩
    · exact Or.inr ⟨h, Or.inr ⟨t, h1, (privateComplaint_iff _ _).1 ⟨e, h2, rfl⟩⟩⟩
  · rintro (⟨h, rfl⟩ | ⟨h, h' | ⟨t, h1, h2⟩⟩)
    · exact ⟨.notAPrivateKey, Or.inl ⟨h, rfl⟩, by decide +kernel⟩
    · obtain ⟨e, h1, h2⟩ := (unreadable_iff _ _).2 h'
      exact ⟨.asn1 e, Or.inr ⟨h, Or.inl ⟨e, h1, rfl⟩⟩, h2⟩
    · obtain ⟨e, h3, h4⟩ := (privateComplaint_iff _ _).2 h2
      exact ⟨e, Or.inr ⟨h, Or.inr ⟨t, h1, h3⟩⟩, h4⟩

/-- C113: the message for a PEM that is not an RSA public key, exactly. -/
theorem C113_public (pem : PEM) (s : List Char) : message keyError (Model.Pem.publicKeyTryFrom pem) = some s ↔
    (pem.label ≠ "PUBLIC KEY".toList ∧ s = "must be a public key".toList) ∨
    (pem.label = "PUBLIC KEY".toList ∧ (Unreadable pem.data s ∨ ∃ t, Accepts pem.data t ∧ PublicComplaint t s)) := by
  rw [message_iff]
  simp only [C98_public_error_iff]
  constructor
  · rintro ⟨e, ⟨h, rfl⟩ | ⟨h, ⟨e', h', rfl⟩ | ⟨t, h1, h2⟩⟩, rfl⟩
    · exact Or.inl ⟨h, by decide +kernel⟩
    · exact Or.inr ⟨h, Or.inl ((unreadable_iff _ _).1 ⟨e', h', rfl⟩)⟩
    · exact Or.inr ⟨h, Or.inr ⟨t, h1, (publicComplaint_iff _ _).1 ⟨e, h2, rfl⟩⟩⟩
  · rintro (⟨h, rfl⟩ | ⟨h, h' | ⟨t, h1, h2⟩⟩)
    · exact ⟨.notAPublicKey, Or.inl ⟨h, rfl⟩, by decide +kernel⟩
    · obtain ⟨e, h1, h2⟩ := (unreadable_iff _ _).2 h'
      exact ⟨.asn1 e, Or.inr ⟨h, Or.inl ⟨e, h1, rfl⟩⟩, h2⟩
    · obtain ⟨e, h3, h4⟩ := (publicComplaint_iff _ _).2 h2
      exact ⟨e, Or.inr ⟨h, Or.inr ⟨t, h1, h3⟩⟩, h4⟩

/-- C113: the message identifies the cause: two inputs with the same message are rejected for the same reason, down to the
tags, lengths and values involved. -/
theorem C113_same_text_same_reason :
    (∀ b b' s, message asn1Error (Model.Asn1.tryFrom b) = some s → message asn1Error (Model.Asn1.tryFrom b') = some s →
      Model.Asn1.tryFrom b = Model.Asn1.tryFrom b') ∧
    (∀ p p' s, message keyError (Model.Pem.privateKeyTryFrom p) = some s →
      message keyError (Model.Pem.privateKeyTryFrom p') = some s →
      Model.Pem.privateKeyTryFrom p = Model.Pem.privateKeyTryFrom p') ∧
    ∀ p p' s, message keyError (Model.Pem.publicKeyTryFrom p) = some s →
      message keyError (Model.Pem.publicKeyTryFrom p') = some s →
      Model.Pem.publicKeyTryFrom p = Model.Pem.publicKeyTryFrom p' := by
  refine ⟨fun b b' s h h' => ?_, fun p p' s h h' => ?_, fun p p' s h h' => ?_⟩
  · obtain ⟨e, h1, h2⟩ := (message_iff ..).1 h
    obtain ⟨e', h1', h2'⟩ := (message_iff ..).1 h'
    rw [h1, h1', asn1Error_inj e e' (h2.symm.trans h2')]
  · obtain ⟨e, h1, h2⟩ := (message_iff ..).1 h
    obtain ⟨e', h1', h2'⟩ := (message_iff ..).1 h'
    rw [h1, h1', keyError_inj e e' (h2.symm.trans h2')]
  · obtain ⟨e, h1, h2⟩ := (message_iff ..).1 h
    obtain ⟨e', h1', h2'⟩ := (message_iff ..).1 h'
    rw [h1, h1', keyError_inj e e' (h2.symm.trans h2')]

/-- C113: the printed form of an ASN.1 value (which is part of some messages, and what `{:?}` prints) determines the value. -/
theorem C113_debug (t u : Asn1) : debug t = shown t ∧ (debug t = debug u → t = u) := ⟨debug_eq t, debug_inj⟩

/-- The sentences about BEGIN and END lines. -/
def pemSentences : List (Model.Pem.Error × List Char) :=
  [(.multipleBegin, "multiple BEGIN lines".toList), (.invalidBegin, "invalid BEGIN line".toList),
   (.endBeforeBegin, "found END line before the BEGIN line".toList), (.multipleEnd, "multiple END lines".toList),
   (.invalidEnd, "invalid END line".toList), (.beginMissing, "BEGIN line is missing".toList),
   (.endMissing, "END line is missing".toList), (.labelMismatch, "label mismatch".toList)]

/-- C113: the message for a text whose BEGIN and END lines are wrong, exactly, and it identifies what is wrong. -/
theorem C113_pem (base64 s x : List Char) :
    ((∃ e, e ≠ .base64 ∧ Model.Pem.decodePem s = .error e ∧ x = pemError base64 e) ↔
      ∃ e, Spec.Pem.BadMarks (Spec.Pem.marks (Spec.Pem.trimmedLines s)) e ∧ (e, x) ∈ pemSentences) ∧
    ∀ e e', (e, x) ∈ pemSentences → (e', x) ∈ pemSentences → e = e' := by
  have key : ∀ e, (e, x) ∈ pemSentences ↔ e ≠ .base64 ∧ x = pemError base64 e := by
    intro e
    have h : ∀ e, e ≠ .base64 → (e, pemError base64 e) ∈ pemSentences := by
      intro e he
      cases e
      case base64 => exact absurd rfl he
      all_goals
        have : pemSentences = [(.multipleBegin, pemError [] .multipleBegin), (.invalidBegin, pemError [] .invalidBegin),
          (.endBeforeBegin, pemError [] .endBeforeBegin), (.multipleEnd, pemError [] .multipleEnd),
          (.invalidEnd, pemError [] .invalidEnd), (.beginMissing, pemError [] .beginMissing),
          (.endMissing, pemError [] .endMissing), (.labelMismatch, pemError [] .labelMismatch)] := by decide +kernel
        rw [this]
        simp [pemError]
    have h2 : ∀ e x x', (e, x) ∈ pemSentences → (e, x') ∈ pemSentences → x = x' := by
      intro e x x' h h'
      simp only [pemSentences, List.mem_cons, Prod.mk.injEq, List.not_mem_nil, or_false] at h h'
      rcases h with ⟨rfl, h⟩ | ⟨rfl, h⟩ | ⟨rfl, h⟩ | ⟨rfl, h⟩ | ⟨rfl, h⟩ | ⟨rfl, h⟩ | ⟨rfl, h⟩ | ⟨rfl, h⟩ <;>
        simp only [reduceCtorEq, false_and, true_and, false_or, or_false] at h' <;> rw [h, h']
    constructor
    · intro hm
      have he : e ≠ .base64 := by
        rintro rfl
        simp [pemSentences] at hm
      exact ⟨he, h2 e _ _ hm (h e he)⟩
    · rintro ⟨he, rfl⟩
      exact h e he
  refine ⟨⟨?_, ?_⟩, ?_⟩
  · rintro ⟨e, he, h, hx⟩
    rcases (C97_error_iff s e).1 h with h | ⟨h, _⟩
    · exact ⟨e, h, (key e).2 ⟨he, hx⟩⟩
    · exact absurd h he
  · rintro ⟨e, h, hm⟩
    obtain ⟨he, hx⟩ := (key e).1 hm
    exact ⟨e, he, (C97_error_iff s e).2 (Or.inl h), hx⟩
  · intro e e' h h'
    obtain ⟨he, hx⟩ := (key e).1 h
    obtain ⟨he', hx'⟩ := (key e').1 h'
    rw [hx] at hx'
    cases e <;> cases e' <;> simp [pemError] at hx' he he' ⊢

/-- C113: `as_u128` reports how many bytes the number has (for every number from 2^128 on). -/
theorem C113_as_u128 (n : Nat) : message asU128Error (Model.Big.asU128 (Spec.Big.big n)) =
    if n < 2 ^ 128 then none
    else some ("expected at most 16 bytes, but got ".toList ++ number ((n.size + 7) / 8)) := by
  rw [C36_as_u128]
  split
  · rfl
  · rw [← decimal_eq]
    have : "expected at most 16 bytes, but got ".toList = chars!"expected at most 16 bytes, but got " := by decide +kernel
    rw [this]
    rfl

/-- Not vacuous: messages with numbers, with nesting, and with a value. -/
example : message asn1Error (Model.Asn1.tryFrom [0x30#8, 5#8, 5#8, 0#8, 9#8, 1#8, 7#8]) =
    some "failed to parse sequence: unknown tag: 9".toList := by decide +kernel
example : message asn1Error (Model.Asn1.tryFrom [0x30#8, 4#8, 5#8, 0#8, 2#8, 100#8]) =
    some "failed to parse sequence: tag (2) had too little data, expected 100 bytes, got 0".toList := by decide +kernel
example : message keyError (Model.Pem.publicKeyTryFrom ⟨"PUBLIC KEY".toList, [3#8, 3#8, 0#8, 200#8, 10#8]⟩) =
    some "expected content to be wrapped in a sequence tag, but found tag BitString([200, 10], 0)".toList := by
  decide +kernel
example : debug (.sequence [.null, .sequence [], .integer [1#8]]) = "Sequence([Null, Sequence([]), Integer([1])])".toList := by
  decide +kernel

end Verif.Props
