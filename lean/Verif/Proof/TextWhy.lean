import Verif.Proof.Text
import Verif.Proof.KeyErrors

/-! # What is said about which input -/

namespace Verif.Model.Text
open Verif Verif.Spec.Text Verif.Spec.Asn1 Verif.Spec.Keys
open Verif.Model.Asn1 (Asn1)

theorem message_iff {ε α : Type} (text : ε → List Char) (r : R (Except ε α)) (s : List Char) :
    message text r = some s ↔ ∃ e, r = .ok (.error e) ∧ s = text e := by
  rcases r with p | e | a
  · simp [message]
  · simp [message, eq_comm]
  · simp [message]

theorem complaint_of_fails {b : List U8} {e : Asn1.Error} (h : Fails b e) : Complaint b (asn1Error e) := by
  induction h with
  | noLength b h => exact .noLength b h
  | tooLittleData tag lf rest n h1 h2 =>
    have := Complaint.tooLittleData tag lf rest n h1 h2
    rw [asn1Error]
    simpa only [decimal_eq] using this
  | unknownTag tag lf rest n h1 h2 h3 =>
    have := Complaint.unknownTag tag lf rest n h1 h2 h3
    rw [asn1Error]
    simpa only [decimal_eq] using this
  | inSequence lf pre bad rest l e h1 h2 h3 _ ih => exact .inSequence lf pre bad rest l _ h1 h2 h3 ih

theorem fails_of_complaint {b : List U8} {s : List Char} (h : Complaint b s) : ∃ e, Fails b e ∧ s = asn1Error e := by
  induction h with
  | noLength b h => exact ⟨_, .noLength b h, rfl⟩
  | tooLittleData tag lf rest n h1 h2 => exact ⟨_, .tooLittleData tag lf rest n h1 h2, by simp only [asn1Error, decimal_eq]⟩
  | unknownTag tag lf rest n h1 h2 h3 => exact ⟨_, .unknownTag tag lf rest n h1 h2 h3, by simp only [asn1Error, decimal_eq]⟩
  | inSequence lf pre bad rest l s h1 h2 h3 _ ih =>
    obtain ⟨e, h4, rfl⟩ := ih
    exact ⟨_, .inSequence lf pre bad rest l e h1 h2 h3 h4, by rw [asn1Error]⟩

theorem unreadable_iff (b : List U8) (s : List Char) : (∃ e, Rejected b e ∧ s = asn1Error e) ↔ Unreadable b s := by
  constructor
  · rintro ⟨e, h | ⟨rfl, h⟩, rfl⟩
    · exact Or.inl (complaint_of_fails h)
    · exact Or.inr ⟨rfl, h⟩
  · rintro (h | ⟨rfl, h⟩)
    · obtain ⟨e, h1, h2⟩ := fails_of_complaint h
      exact ⟨e, Or.inl h1, h2⟩
    · exact ⟨.extraBytes, Or.inr ⟨rfl, h⟩, rfl⟩

theorem keyError_notASequence (t : Asn1) : keyError (.notASequence t) = noSequence t := by
  rw [keyError, debug_eq, noSequence]

theorem algorithmComplaint_iff (other : RsaAsn1.Error) (t : Asn1) (s : List Char) :
    (∃ e, BadAlgorithm other t e ∧ s = keyError e) ↔ AlgorithmComplaint (keyError other) t s := by
  constructor
  · rintro ⟨e, h, rfl⟩
    cases h with
    | notASequence _ h => exact .notASequence _ h
    | noIdentifier _ h => exact .noIdentifier _ h
    | notRsa _ h => exact .notRsa _ h
  · intro h
    cases h with
    | notASequence _ h => exact ⟨_, .notASequence _ h, rfl⟩
    | noIdentifier _ h => exact ⟨_, .noIdentifier _ h, rfl⟩
    | notRsa _ h => exact ⟨_, .notRsa _ h, rfl⟩

theorem integersComplaint_iff (count : Nat) (wrong : RsaAsn1.Error) (t : Asn1) (s : List Char) :
    (∃ e, NotIntegers count wrong t e ∧ s = keyError e) ↔ IntegersComplaint count (keyError wrong) t s := by
  constructor
  · rintro ⟨e, h, rfl⟩
    cases h with
    | notASequence _ h => rw [keyError_notASequence]; exact .notASequence _ h
    | wrongNumber _ h => exact .wrongNumber _ h
    | notAllIntegers _ h h' => exact .notAllIntegers _ h h'
  · intro h
    cases h with
    | notASequence _ h => exact ⟨_, .notASequence _ h, (keyError_notASequence t).symm⟩
    | wrongNumber _ h => exact ⟨_, .wrongNumber _ h, rfl⟩
    | notAllIntegers _ h h' => exact ⟨_, .notAllIntegers _ h h', rfl⟩

theorem rsaKeyComplaint_iff (t : Asn1) (s : List Char) :
    (∃ e, BadRsaPrivateKey t e ∧ s = keyError e) ↔ RsaKeyComplaint t s := by
  constructor
  · rintro ⟨e, h, rfl⟩
    cases h with
    | notIntegers _ _ h => exact .notIntegers _ _ ((integersComplaint_iff 9 .expected9Elements t _).1 ⟨e, h, rfl⟩)
    | version v numbers h h' => exact .version v numbers h h'
  · intro h
    cases h with
    | notIntegers _ _ h =>
      obtain ⟨e, h1, h2⟩ := (integersComplaint_iff 9 .expected9Elements t s).2 h
      exact ⟨e, .notIntegers _ _ h1, h2⟩
    | version v numbers h h' => exact ⟨_, .version v numbers h h', rfl⟩

theorem privateComplaint_iff (t : Asn1) (s : List Char) :
    (∃ e, BadPrivate t e ∧ s = keyError e) ↔ PrivateComplaint t s := by
  constructor
  · rintro ⟨e, h, rfl⟩
    cases h with
    | notASequence _ h => rw [keyError_notASequence]; exact .notASequence _ h
    | wrongNumber l h => exact .wrongNumber l h
    | version v a k h => exact .version v a k h
    | algorithm a k _ h =>
      exact .algorithm a k _ ((algorithmComplaint_iff .privateAlgorithmNotRsa a _).1 ⟨e, h, rfl⟩)
    | notAnOctetString k h => exact .notAnOctetString k h
    | asn1 inner e h => exact .asn1 inner _ ((unreadable_iff inner _).1 ⟨e, h, rfl⟩)
    | key inner t e h1 h2 => exact .key inner t _ h1 ((rsaKeyComplaint_iff t _).1 ⟨e, h2, rfl⟩)
  · intro h
    cases h with
    | notASequence _ h => exact ⟨_, .notASequence _ h, (keyError_notASequence t).symm⟩
    | wrongNumber l h => exact ⟨_, .wrongNumber l h, rfl⟩
    | version v a k h => exact ⟨_, .version v a k h, rfl⟩
    | algorithm a k _ h =>
      obtain ⟨e, h1, h2⟩ := (algorithmComplaint_iff .privateAlgorithmNotRsa a s).2 h
      exact ⟨e, .algorithm a k e h1, h2⟩
    | notAnOctetString k h => exact ⟨_, .notAnOctetString k h, rfl⟩
    | asn1 inner s h =>
      obtain ⟨e, h1, rfl⟩ := (unreadable_iff inner s).2 h
      exact ⟨_, .asn1 inner e h1, by rw [keyError]⟩
    | key inner t s h1 h2 =>
      obtain ⟨e, h3, rfl⟩ := (rsaKeyComplaint_iff t s).2 h2
      exact ⟨_, .key inner t e h1 h3, by rw [keyError]⟩

theorem publicComplaint_iff (t : Asn1) (s : List Char) :
    (∃ e, BadPublic t e ∧ s = keyError e) ↔ PublicComplaint t s := by
  constructor
  · rintro ⟨e, h, rfl⟩
    cases h with
    | notASequence _ h => rw [keyError_notASequence]; exact .notASequence _ h
    | wrongNumber l h => exact .wrongNumber l h
    | algorithm a k _ h =>
      exact .algorithm a k _ ((algorithmComplaint_iff .algorithmNotRsa a _).1 ⟨e, h, rfl⟩)
    | notABitString k h => exact .notABitString k h
    | unusedBits inner u h => exact .unusedBits inner u h
    | asn1 inner e h => exact .asn1 inner _ ((unreadable_iff inner _).1 ⟨e, h, rfl⟩)
    | key inner t e h1 h2 =>
      exact .key inner t _ h1 ((integersComplaint_iff 2 .expected2Elements t _).1 ⟨e, h2, rfl⟩)
  · intro h
    cases h with
    | notASequence _ h => exact ⟨_, .notASequence _ h, (keyError_notASequence t).symm⟩
    | wrongNumber l h => exact ⟨_, .wrongNumber l h, rfl⟩
    | algorithm a k _ h =>
      obtain ⟨e, h1, h2⟩ := (algorithmComplaint_iff .algorithmNotRsa a s).2 h
      exact ⟨e, .algorithm a k e h1, h2⟩
    | notABitString k h => exact ⟨_, .notABitString k h, rfl⟩
    | unusedBits inner u h => exact ⟨_, .unusedBits inner u h, rfl⟩
    | asn1 inner s h =>
      obtain ⟨e, h1, rfl⟩ := (unreadable_iff inner s).2 h
      exact ⟨_, .asn1 inner e h1, by rw [keyError]⟩
    | key inner t s h1 h2 =>
      obtain ⟨e, h3, rfl⟩ := (integersComplaint_iff 2 .expected2Elements t s).2 h2
      exact ⟨_, .key inner t e h1 h3, by rw [keyError]⟩

end Verif.Model.Text
