import Verif.Proof.KeyErrors
import Verif.Props.Keys

/-! # C98: which key files are rejected, and why -/

namespace Verif.Props
open Verif Verif.Spec.Keys
open _root_.Verif.Model.Pem (PEM privateKeyTryFrom publicKeyTryFrom privateLabel publicLabel)
open _root_.Verif.Spec.Asn1 (Accepts)
open _root_.Verif.Model.RsaAsn1 (Error)

/-- C98: the conversion of a PEM to a private key reports an error exactly if the label is another one, the data is not an
ASN.1 value, or the value is not a PKCS#8 structure with an RSA key (`BadPrivate` in the specification), and the error tells
which. -/
theorem C98_private_error_iff (pem : PEM) (e : Error) : privateKeyTryFrom pem = .ok (.error e) ↔
    (pem.label ≠ "PRIVATE KEY".toList ∧ e = .notAPrivateKey) ∨
    (pem.label = "PRIVATE KEY".toList ∧ ((∃ e', Rejected pem.data e' ∧ e = .asn1 e') ∨
      ∃ t, Accepts pem.data t ∧ BadPrivate t e)) := by
  rw [← privateLabel_eq]
  unfold privateKeyTryFrom
  by_cases hl : pem.label ≠ privateLabel
  · rw [if_pos hl]
    constructor
    · intro h; cases h; exact Or.inl ⟨hl, rfl⟩
    · rintro (⟨_, rfl⟩ | ⟨h, _⟩)
      · rfl
      · exact absurd h hl
  · rw [if_neg hl]
    simp only [bind, Except.bind, pure, Except.pure]
    rw [not_not] at hl
    constructor
    · intro h
      refine Or.inr ⟨hl, ?_⟩
      rcases ht : Model.Asn1.tryFrom pem.data with p | e' | t
      · rw [ht] at h; cases h
      · rw [ht] at h
        cases h
        exact Or.inl ⟨e', (Model.RsaAsn1.rejected_iff _ _).1 ht, rfl⟩
      · rw [ht] at h
        simp only at h
        right
        rcases hk : Model.RsaAsn1.PrivateKeyInfo.fromAsn1 t with p | e' | k
        · rw [hk] at h; cases h
        · rw [hk] at h
          cases h
          exact ⟨t, (Model.Asn1.tryFrom_ok_iff _ _).1 ht, (Model.RsaAsn1.privateInfo_error_iff _ _).1 hk⟩
        · rw [hk] at h; cases h
    · rintro (⟨h, _⟩ | ⟨_, ⟨e', h, rfl⟩ | ⟨t, h1, h2⟩⟩)
      · exact absurd hl h
      · rw [(Model.RsaAsn1.rejected_iff _ _).2 h]
      · rw [(Model.Asn1.tryFrom_ok_iff _ _).2 h1]
        simp only
        rw [(Model.RsaAsn1.privateInfo_error_iff _ _).2 h2]

/-- C98: likewise for public keys. -/
theorem C98_public_error_iff (pem : PEM) (e : Error) : publicKeyTryFrom pem = .ok (.error e) ↔
    (pem.label ≠ "PUBLIC KEY".toList ∧ e = .notAPublicKey) ∨
    (pem.label = "PUBLIC KEY".toList ∧ ((∃ e', Rejected pem.data e' ∧ e = .asn1 e') ∨
      ∃ t, Accepts pem.data t ∧ BadPublic t e)) := by
  rw [← publicLabel_eq]
  unfold publicKeyTryFrom
  by_cases hl : pem.label ≠ publicLabel
  · rw [if_pos hl]
    constructor
    · intro h; cases h; exact Or.inl ⟨hl, rfl⟩
    · rintro (⟨_, rfl⟩ | ⟨h, _⟩)
      · rfl
      · exact absurd h hl
  · rw [if_neg hl]
    simp only [bind, Except.bind, pure, Except.pure]
    rw [not_not] at hl
    constructor
    · intro h
      refine Or.inr ⟨hl, ?_⟩
      rcases ht : Model.Asn1.tryFrom pem.data with p | e' | t
      · rw [ht] at h; cases h
      · rw [ht] at h
        cases h
        exact Or.inl ⟨e', (Model.RsaAsn1.rejected_iff _ _).1 ht, rfl⟩
      · rw [ht] at h
        simp only at h
        right
        rcases hk : Model.RsaAsn1.SubjectPublicKeyInfo.fromAsn1 t with p | e' | k
        · rw [hk] at h; cases h
        · rw [hk] at h
          cases h
          exact ⟨t, (Model.Asn1.tryFrom_ok_iff _ _).1 ht, (Model.RsaAsn1.publicInfo_error_iff _ _).1 hk⟩
        · rw [hk] at h; cases h
    · rintro (⟨h, _⟩ | ⟨_, ⟨e', h, rfl⟩ | ⟨t, h1, h2⟩⟩)
      · exact absurd hl h
      · rw [(Model.RsaAsn1.rejected_iff _ _).2 h]
      · rw [(Model.Asn1.tryFrom_ok_iff _ _).2 h1]
        simp only
        rw [(Model.RsaAsn1.publicInfo_error_iff _ _).2 h2]

/-- Not vacuous: a structure for another algorithm, and a private key under the public label. -/
example : BadPrivate (.sequence [.integer [0#8], .sequence [.objectIdentifier [43#8, 101#8, 112#8], .null], .octetString []])
    .privateAlgorithmNotRsa := .algorithm _ _ _ (.notRsa _ (by decide +kernel))
example : publicKeyTryFrom ⟨"PUBLIC KEY".toList, Spec.Asn1.der (privateKeyInfo ⟨15, 3, 3, 3, 5, 1, 3, 2⟩)⟩ =
    .ok (.error .expectedTwoElements) := by rfl
/-- A version of two bytes inside. -/
example : BadRsaPrivateKey (.sequence (List.replicate 9 (.integer [0#8, 0#8]))) .versionNotOneByte :=
  .version [0#8, 0#8] (List.replicate 8 [0#8, 0#8]) rfl (by decide)

end Verif.Props
