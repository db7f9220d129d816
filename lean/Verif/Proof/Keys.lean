import Verif.Proof.Asn1
import Verif.Model.Pem
import Verif.Spec.Keys

/-! # Conversion of keys -/

namespace Verif.Model.RsaAsn1
open Verif Verif.Model.Big Verif.Model.Asn1 Verif.Spec.Asn1 Verif.Spec.Big Verif.Spec.Keys

theorem rsaOid_eq : rsaEncryption = rsaOid := by decide +kernel

theorem algorithm_ok_iff (asn : Asn1) (a : AlgorithmIdentifier) : AlgorithmIdentifier.fromAsn1 asn = .ok a ↔
    asn = .sequence [.objectIdentifier a.algorithm, .null] := by
  constructor
  · intro h
    unfold AlgorithmIdentifier.fromAsn1 at h
    split at h
    · split at h
      · cases h; rfl
      · cases h
    · cases h
  · rintro rfl; rfl

theorem privateKey_ok (v : U8) (n e d p q dp dq qi : List U8) :
    PrivateKey.fromAsn1 (.sequence [.integer [v], .integer n, .integer e, .integer d, .integer p, .integer q, .integer dp,
      .integer dq, .integer qi]) = .ok (.ok ⟨v, big (beVal n), big (beVal e), big (beVal d), big (beVal p), big (beVal q),
        big (beVal dp), big (beVal dq), big (beVal qi)⟩) := by
  have hv : idx [v] 0 = .ok v := rfl
  unfold PrivateKey.fromAsn1
  simp only [List.length_cons, List.length_nil]
  rw [if_neg (by simp), if_neg (by simp)]
  simp only [fromBeBytes_eq, hv, bind, Except.bind]
  rfl

theorem privateKey_ok_inv (asn : Asn1) (k : PrivateKey) (h : PrivateKey.fromAsn1 asn = .ok (.ok k)) :
    ∃ (v : U8) (n e d p q dp dq qi : List U8), asn = .sequence [.integer [v], .integer n, .integer e, .integer d, .integer p, .integer q,
      .integer dp, .integer dq, .integer qi] := by
  unfold PrivateKey.fromAsn1 at h
  split at h
  · rename_i seq
    by_cases hl : seq.length ≠ 9
    · rw [if_pos hl] at h; cases h
    · rw [if_neg hl] at h
      simp only [pure, Except.pure, bind, Except.bind] at h
      split at h
      · rename_i version modulus publicExponent privateExponent prime1 prime2 exponent1 exponent2 coefficient
        by_cases hv : version.length ≠ 1
        · rw [if_pos hv] at h; cases h
        · obtain ⟨v, rfl⟩ := List.length_eq_one_iff.1 (not_not.1 hv)
          exact ⟨v, _, _, _, _, _, _, _, _, rfl⟩
      · cases h
  · cases h

theorem privateKey_no_panic (asn : Asn1) : ∃ r, PrivateKey.fromAsn1 asn = .ok r := by
  unfold PrivateKey.fromAsn1
  split
  · rename_i seq
    by_cases hl : seq.length ≠ 9
    · rw [if_pos hl]; exact ⟨_, rfl⟩
    · rw [if_neg hl]
      simp only [pure, Except.pure, bind, Except.bind]
      split
      · rename_i version modulus publicExponent privateExponent prime1 prime2 exponent1 exponent2 coefficient
        by_cases hv : version.length ≠ 1
        · rw [if_pos hv]; exact ⟨_, rfl⟩
        · rw [if_neg hv]
          obtain ⟨v, rfl⟩ := List.length_eq_one_iff.1 (not_not.1 hv)
          have hv : idx [v] 0 = .ok v := rfl
          simp only [fromBeBytes_eq, hv]
          exact ⟨_, rfl⟩
      · exact ⟨_, rfl⟩
  · exact ⟨_, rfl⟩

theorem publicKey_ok (n e : List U8) : PublicKey.fromAsn1 (.sequence [.integer n, .integer e]) =
    .ok (.ok ⟨big (beVal n), big (beVal e)⟩) := by
  unfold PublicKey.fromAsn1
  simp only [List.length_cons, List.length_nil]
  rw [if_neg (by simp)]
  simp only [fromBeBytes_eq, bind, Except.bind]
  rfl

theorem publicKey_ok_inv (asn : Asn1) (k : PublicKey) (h : PublicKey.fromAsn1 asn = .ok (.ok k)) :
    ∃ n e : List U8, asn = .sequence [.integer n, .integer e] := by
  unfold PublicKey.fromAsn1 at h
  split at h
  · rename_i seq
    by_cases hl : seq.length ≠ 2
    · rw [if_pos hl] at h; cases h
    · rw [if_neg hl] at h
      simp only [pure, Except.pure, bind, Except.bind] at h
      split at h
      · exact ⟨_, _, rfl⟩
      · cases h
  · cases h

theorem publicKey_no_panic (asn : Asn1) : ∃ r, PublicKey.fromAsn1 asn = .ok r := by
  unfold PublicKey.fromAsn1
  split
  · rename_i seq
    by_cases hl : seq.length ≠ 2
    · rw [if_pos hl]; exact ⟨_, rfl⟩
    · rw [if_neg hl]
      simp only [pure, Except.pure, bind, Except.bind]
      split
      · simp only [fromBeBytes_eq]
        exact ⟨_, rfl⟩
      · exact ⟨_, rfl⟩
  · exact ⟨_, rfl⟩

theorem isZero_iff (a : Asn1) : isZero a = true ↔ a = .integer [0#8] := by
  unfold isZero
  split
  · simp
  · rename_i h
    constructor
    · intro e; cases e
    · intro e; exact absurd e (h _)

/-- What `PrivateKeyInfo::from_asn1` does behind a good outer structure. -/
theorem privateInfo_good (inner : List U8) : PrivateKeyInfo.fromAsn1 (.sequence [.integer [0#8], algorithm, .octetString inner]) =
    match tryFrom inner with
    | .error p => .error p
    | .ok (.error e) => .ok (.error (.privateKeyBytes e))
    | .ok (.ok asn) =>
      match PrivateKey.fromAsn1 asn with
      | .error p => .error p
      | .ok (.error e) => .ok (.error (.privateKey e))
      | .ok (.ok pr) => .ok (.ok ⟨0#32, ⟨rsaOid⟩, pr⟩) := by
  have h0 : idx [.integer [0#8], algorithm, .octetString inner] 0 = .ok (.integer [0#8]) := rfl
  have h1 : idx [.integer [0#8], algorithm, .octetString inner] 1 = .ok algorithm := rfl
  have h2 : idx [.integer [0#8], algorithm, .octetString inner] 2 = .ok (.octetString inner) := rfl
  have ha : AlgorithmIdentifier.fromAsn1 algorithm = .ok ⟨rsaOid⟩ := by
    rw [algorithm_ok_iff]; unfold algorithm; rw [rsaOid_eq]
  unfold PrivateKeyInfo.fromAsn1
  simp only [List.length_cons, List.length_nil, h0, h1, h2, ha, bind, Except.bind, pure, Except.pure]
  rw [if_neg (by simp), if_neg (by simp [isZero]), if_neg (by simp)]
  rcases tryFrom inner with p | e | asn
  · rfl
  · rfl
  · simp only
    rcases PrivateKey.fromAsn1 asn with p | e | pr <;> rfl

/-- Every other outer structure is an error. -/
theorem privateInfo_bad (asn : Asn1) (h : ∀ inner, asn ≠ .sequence [.integer [0#8], algorithm, .octetString inner]) :
    ∃ e, PrivateKeyInfo.fromAsn1 asn = .ok (.error e) := by
  unfold PrivateKeyInfo.fromAsn1
  split
  · rename_i seq
    by_cases hl : seq.length ≠ 3
    · rw [if_pos hl]; exact ⟨_, rfl⟩
    · rw [if_neg hl]
      obtain ⟨a, b, c, rfl⟩ := List.length_eq_three.1 (not_not.1 hl)
      have h0 : idx [a, b, c] 0 = .ok a := rfl
      have h1 : idx [a, b, c] 1 = .ok b := rfl
      have h2 : idx [a, b, c] 2 = .ok c := rfl
      simp only [h0, h1, h2, bind, Except.bind, pure, Except.pure]
      by_cases hz : isZero a = true
      · rw [if_neg (by simp [hz])]
        rw [isZero_iff] at hz
        rcases ha : AlgorithmIdentifier.fromAsn1 b with e | algo
        · exact ⟨_, rfl⟩
        · simp only
          rw [algorithm_ok_iff] at ha
          by_cases ho : algo.algorithm ≠ rsaOid
          · rw [if_pos ho]; exact ⟨_, rfl⟩
          · rw [if_neg ho]
            rw [not_not.1 ho, ← rsaOid_eq] at ha
            split
            · rename_i inner
              exact absurd (by rw [hz, ha]; rfl) (h inner)
            · exact ⟨_, rfl⟩
      · rw [if_pos hz]; exact ⟨_, rfl⟩
  · exact ⟨_, rfl⟩

/-- What `SubjectPublicKeyInfo::from_asn1` does behind a good outer structure. -/
theorem publicInfo_good (inner : List U8) : SubjectPublicKeyInfo.fromAsn1 (.sequence [algorithm, .bitString inner 0#8]) =
    match tryFrom inner with
    | .error p => .error p
    | .ok (.error e) => .ok (.error (.publicKeyBytes e))
    | .ok (.ok asn) =>
      match PublicKey.fromAsn1 asn with
      | .error p => .error p
      | .ok (.error e) => .ok (.error (.publicKey e))
      | .ok (.ok pb) => .ok (.ok ⟨⟨rsaOid⟩, pb⟩) := by
  have h0 : idx [algorithm, .bitString inner 0#8] 0 = .ok algorithm := rfl
  have h1 : idx [algorithm, .bitString inner 0#8] 1 = .ok (.bitString inner 0#8) := rfl
  have ha : AlgorithmIdentifier.fromAsn1 algorithm = .ok ⟨rsaOid⟩ := by
    rw [algorithm_ok_iff]; unfold algorithm; rw [rsaOid_eq]
  unfold SubjectPublicKeyInfo.fromAsn1
  simp only [List.length_cons, List.length_nil, h0, h1, ha, bind, Except.bind, pure, Except.pure]
  rw [if_neg (by simp), if_neg (by simp), if_neg (by simp)]
  rcases tryFrom inner with p | e | asn
  · rfl
  · rfl
  · simp only
    rcases PublicKey.fromAsn1 asn with p | e | pr <;> rfl

/-- Every other outer structure is an error. -/
theorem publicInfo_bad (asn : Asn1) (h : ∀ inner, asn ≠ .sequence [algorithm, .bitString inner 0#8]) :
    ∃ e, SubjectPublicKeyInfo.fromAsn1 asn = .ok (.error e) := by
  unfold SubjectPublicKeyInfo.fromAsn1
  split
  · rename_i seq
    by_cases hl : seq.length ≠ 2
    · rw [if_pos hl]; exact ⟨_, rfl⟩
    · rw [if_neg hl]
      obtain ⟨a, b, rfl⟩ := List.length_eq_two.1 (not_not.1 hl)
      have h0 : idx [a, b] 0 = .ok a := rfl
      have h1 : idx [a, b] 1 = .ok b := rfl
      simp only [h0, h1, bind, Except.bind, pure, Except.pure]
      rcases ha : AlgorithmIdentifier.fromAsn1 a with e | algo
      · exact ⟨_, rfl⟩
      · simp only
        rw [algorithm_ok_iff] at ha
        by_cases ho : algo.algorithm ≠ rsaOid
        · rw [if_pos ho]; exact ⟨_, rfl⟩
        · rw [if_neg ho]
          rw [not_not.1 ho, ← rsaOid_eq] at ha
          split
          · rename_i inner unused
            by_cases hu : unused ≠ 0#8
            · rw [if_pos hu]; exact ⟨_, rfl⟩
            · rw [not_not.1 hu] at h
              exact absurd (by rw [ha]; rfl) (h inner)
          · exact ⟨_, rfl⟩
  · exact ⟨_, rfl⟩

end Verif.Model.RsaAsn1

namespace Verif.Model.Pem
open Verif Verif.Model.Big Verif.Model.Asn1 Verif.Model.RsaAsn1 Verif.Spec.Asn1 Verif.Spec.Big Verif.Spec.Keys

theorem private_unfold (pem : PEM) (hl : pem.label = privateLabel) : privateKeyTryFrom pem =
    match tryFrom pem.data with
    | .error p => .error p
    | .ok (.error e) => .ok (.error (.asn1 e))
    | .ok (.ok asn) =>
      match PrivateKeyInfo.fromAsn1 asn with
      | .error p => .error p
      | .ok (.error e) => .ok (.error e)
      | .ok (.ok info) => .ok (.ok ⟨info.privateKey.modulus, info.privateKey.privateExponent⟩) := by
  unfold privateKeyTryFrom
  rw [if_neg (by simp [hl])]
  simp only [bind, Except.bind, pure, Except.pure]
  rcases tryFrom pem.data with p | e | asn
  · rfl
  · rfl
  · simp only
    rcases PrivateKeyInfo.fromAsn1 asn with p | e | pr <;> rfl

theorem private_label (pem : PEM) (hl : pem.label ≠ privateLabel) : privateKeyTryFrom pem = .ok (.error .notAPrivateKey) := by
  unfold privateKeyTryFrom
  rw [if_pos hl]
  rfl

theorem public_unfold (pem : PEM) (hl : pem.label = publicLabel) : publicKeyTryFrom pem =
    match tryFrom pem.data with
    | .error p => .error p
    | .ok (.error e) => .ok (.error (.asn1 e))
    | .ok (.ok asn) =>
      match SubjectPublicKeyInfo.fromAsn1 asn with
      | .error p => .error p
      | .ok (.error e) => .ok (.error e)
      | .ok (.ok info) => .ok (.ok ⟨info.subjectPublicKey.modulus, info.subjectPublicKey.publicExponent⟩) := by
  unfold publicKeyTryFrom
  rw [if_neg (by simp [hl])]
  simp only [bind, Except.bind, pure, Except.pure]
  rcases tryFrom pem.data with p | e | asn
  · rfl
  · rfl
  · simp only
    rcases SubjectPublicKeyInfo.fromAsn1 asn with p | e | pr <;> rfl

theorem public_label (pem : PEM) (hl : pem.label ≠ publicLabel) : publicKeyTryFrom pem = .ok (.error .notAPublicKey) := by
  unfold publicKeyTryFrom
  rw [if_pos hl]
  rfl

theorem private_ok_iff (pem : PEM) (k : Rsa.PrivateKey) : privateKeyTryFrom pem = .ok (.ok k) ↔
    pem.label = privateLabel ∧ ∃ n d, IsPrivate pem.data n d ∧ k = ⟨big n, big d⟩ := by
  constructor
  · intro h
    by_cases hl : pem.label = privateLabel
    · refine ⟨hl, ?_⟩
      rw [private_unfold pem hl] at h
      rcases h1 : tryFrom pem.data with p | e | asn
      · rw [h1] at h; cases h
      · rw [h1] at h; cases h
      · rw [h1] at h
        simp only at h
        by_cases hg : ∃ inner, asn = .sequence [.integer [0#8], algorithm, .octetString inner]
        · obtain ⟨inner, rfl⟩ := hg
          rw [privateInfo_good] at h
          rcases h2 : tryFrom inner with p | e | asn
          · rw [h2] at h; cases h
          · rw [h2] at h; cases h
          · rw [h2] at h
            simp only at h
            rcases h3 : PrivateKey.fromAsn1 asn with p | e | pr
            · rw [h3] at h; cases h
            · rw [h3] at h; cases h
            · obtain ⟨v, n, e, d, p, q, dp, dq, qi, rfl⟩ := privateKey_ok_inv _ _ h3
              rw [privateKey_ok] at h
              cases h
              exact ⟨_, _, ⟨inner, v, n, e, d, p, q, dp, dq, qi, (tryFrom_ok_iff _ _).1 h1, (tryFrom_ok_iff _ _).1 h2, rfl, rfl⟩, rfl⟩
        · obtain ⟨e, he⟩ := privateInfo_bad asn (fun inner hi => hg ⟨inner, hi⟩)
          rw [he] at h; cases h
    · rw [private_label pem hl] at h; cases h
  · rintro ⟨hl, n, d, ⟨inner, v, nn, e, dd, p, q, dp, dq, qi, h1, h2, rfl, rfl⟩, rfl⟩
    rw [private_unfold pem hl, (tryFrom_ok_iff _ _).2 h1]
    simp only
    rw [privateInfo_good, (tryFrom_ok_iff _ _).2 h2]
    simp only
    rw [privateKey_ok]

theorem public_ok_iff (pem : PEM) (k : Rsa.PublicKey) : publicKeyTryFrom pem = .ok (.ok k) ↔
    pem.label = publicLabel ∧ ∃ n e, IsPublic pem.data n e ∧ k = ⟨big n, big e⟩ := by
  constructor
  · intro h
    by_cases hl : pem.label = publicLabel
    · refine ⟨hl, ?_⟩
      rw [public_unfold pem hl] at h
      rcases h1 : tryFrom pem.data with p | e | asn
      · rw [h1] at h; cases h
      · rw [h1] at h; cases h
      · rw [h1] at h
        simp only at h
        by_cases hg : ∃ inner, asn = .sequence [algorithm, .bitString inner 0#8]
        · obtain ⟨inner, rfl⟩ := hg
          rw [publicInfo_good] at h
          rcases h2 : tryFrom inner with p | e | asn
          · rw [h2] at h; cases h
          · rw [h2] at h; cases h
          · rw [h2] at h
            simp only at h
            rcases h3 : PublicKey.fromAsn1 asn with p | e | pr
            · rw [h3] at h; cases h
            · rw [h3] at h; cases h
            · obtain ⟨n, e, rfl⟩ := publicKey_ok_inv _ _ h3
              rw [publicKey_ok] at h
              cases h
              exact ⟨_, _, ⟨inner, n, e, (tryFrom_ok_iff _ _).1 h1, (tryFrom_ok_iff _ _).1 h2, rfl, rfl⟩, rfl⟩
        · obtain ⟨e, he⟩ := publicInfo_bad asn (fun inner hi => hg ⟨inner, hi⟩)
          rw [he] at h; cases h
    · rw [public_label pem hl] at h; cases h
  · rintro ⟨hl, n, e, ⟨inner, nn, ee, h1, h2, rfl, rfl⟩, rfl⟩
    rw [public_unfold pem hl, (tryFrom_ok_iff _ _).2 h1]
    simp only
    rw [publicInfo_good, (tryFrom_ok_iff _ _).2 h2]
    simp only
    rw [publicKey_ok]

theorem private_panics_iff (pem : PEM) : (∃ p, privateKeyTryFrom pem = .error p) ↔ pem.label = privateLabel ∧
    (Panics pem.data ∨ ∃ inner, Accepts pem.data (.sequence [.integer [0#8], algorithm, .octetString inner]) ∧ Panics inner) := by
  constructor
  · rintro ⟨p, h⟩
    by_cases hl : pem.label = privateLabel
    · refine ⟨hl, ?_⟩
      rw [private_unfold pem hl] at h
      rcases h1 : tryFrom pem.data with p | e | asn
      · exact Or.inl ((tryFrom_panics_iff _).1 ⟨p, h1⟩)
      · rw [h1] at h; cases h
      · rw [h1] at h
        simp only at h
        by_cases hg : ∃ inner, asn = .sequence [.integer [0#8], algorithm, .octetString inner]
        · obtain ⟨inner, rfl⟩ := hg
          rw [privateInfo_good] at h
          rcases h2 : tryFrom inner with p | e | asn
          · exact Or.inr ⟨inner, (tryFrom_ok_iff _ _).1 h1, (tryFrom_panics_iff _).1 ⟨p, h2⟩⟩
          · rw [h2] at h; cases h
          · rw [h2] at h
            simp only at h
            obtain ⟨r, hr⟩ := privateKey_no_panic asn
            rw [hr] at h
            rcases r with e | pr <;> cases h
        · obtain ⟨e, he⟩ := privateInfo_bad asn (fun inner hi => hg ⟨inner, hi⟩)
          rw [he] at h; cases h
    · rw [private_label pem hl] at h; cases h
  · rintro ⟨hl, h | ⟨inner, h1, h2⟩⟩
    · obtain ⟨p, hp⟩ := (tryFrom_panics_iff _).2 h
      rw [private_unfold pem hl, hp]
      exact ⟨p, rfl⟩
    · obtain ⟨p, hp⟩ := (tryFrom_panics_iff _).2 h2
      rw [private_unfold pem hl, (tryFrom_ok_iff _ _).2 h1]
      simp only
      rw [privateInfo_good, hp]
      exact ⟨p, rfl⟩

theorem public_panics_iff (pem : PEM) : (∃ p, publicKeyTryFrom pem = .error p) ↔ pem.label = publicLabel ∧
    (Panics pem.data ∨ ∃ inner, Accepts pem.data (.sequence [algorithm, .bitString inner 0#8]) ∧ Panics inner) := by
  constructor
  · rintro ⟨p, h⟩
    by_cases hl : pem.label = publicLabel
    · refine ⟨hl, ?_⟩
      rw [public_unfold pem hl] at h
      rcases h1 : tryFrom pem.data with p | e | asn
      · exact Or.inl ((tryFrom_panics_iff _).1 ⟨p, h1⟩)
      · rw [h1] at h; cases h
      · rw [h1] at h
        simp only at h
        by_cases hg : ∃ inner, asn = .sequence [algorithm, .bitString inner 0#8]
        · obtain ⟨inner, rfl⟩ := hg
          rw [publicInfo_good] at h
          rcases h2 : tryFrom inner with p | e | asn
          · exact Or.inr ⟨inner, (tryFrom_ok_iff _ _).1 h1, (tryFrom_panics_iff _).1 ⟨p, h2⟩⟩
          · rw [h2] at h; cases h
          · rw [h2] at h
            simp only at h
            obtain ⟨r, hr⟩ := publicKey_no_panic asn
            rw [hr] at h
            rcases r with e | pr <;> cases h
        · obtain ⟨e, he⟩ := publicInfo_bad asn (fun inner hi => hg ⟨inner, hi⟩)
          rw [he] at h; cases h
    · rw [public_label pem hl] at h; cases h
  · rintro ⟨hl, h | ⟨inner, h1, h2⟩⟩
    · obtain ⟨p, hp⟩ := (tryFrom_panics_iff _).2 h
      rw [public_unfold pem hl, hp]
      exact ⟨p, rfl⟩
    · obtain ⟨p, hp⟩ := (tryFrom_panics_iff _).2 h2
      rw [public_unfold pem hl, (tryFrom_ok_iff _ _).2 h1]
      simp only
      rw [publicInfo_good, hp]
      exact ⟨p, rfl⟩

/-! ## DER keys -/

theorem beVal_derInteger (n : Nat) : beVal (derInteger n) = n := by
  have h := beVal_beDigits n
  unfold derInteger
  cases hd : beDigits n with
  | nil => rw [hd] at h; rw [← h]; rfl
  | cons b l =>
    rw [hd] at h
    simp only
    split
    · have := Oaep.beVal_zeros_append 1 (b :: l)
      rw [← h]
      exact this
    · exact h

theorem inner_length_octet (pre : List Asn1) (inner : List U8) :
    inner.length < (der (.sequence (pre ++ [.octetString inner]))).length := by
  have h1 := length_tlv 0x30#8 (derAll (pre ++ [.octetString inner]))
  have h2 : inner.length < (derAll (pre ++ [.octetString inner])).length := by
    induction pre with
    | nil =>
      have := length_tlv 0x04#8 inner
      simp only [List.nil_append, derAll, der, List.append_nil]
      exact this
    | cons a pre ih =>
      rw [List.cons_append, derAll, List.length_append]
      have := ih (length_tlv _ _)
      omega
  unfold der
  omega

theorem inner_length_bits (pre : List Asn1) (inner : List U8) (u : U8) :
    inner.length < (der (.sequence (pre ++ [.bitString inner u]))).length := by
  have h1 := length_tlv 0x30#8 (derAll (pre ++ [.bitString inner u]))
  have h2 : inner.length < (derAll (pre ++ [.bitString inner u])).length := by
    induction pre with
    | nil =>
      have := length_tlv 0x03#8 (u :: inner)
      simp only [List.nil_append, derAll, der, List.append_nil]
      simp only [List.length_cons] at this
      omega
    | cons a pre ih =>
      rw [List.cons_append, derAll, List.length_append]
      have := ih (length_tlv _ _)
      omega
  unfold der
  omega

theorem isPrivate_der (k : RsaKey) (h : (der (privateKeyInfo k)).length < 2 ^ 64) :
    IsPrivate (der (privateKeyInfo k)) k.n k.d := by
  refine ⟨der (rsaPrivateKey k), 0#8, derInteger k.n, derInteger k.e, derInteger k.d, derInteger k.p, derInteger k.q,
    derInteger k.dp, derInteger k.dq, derInteger k.qinv, der_accepts _ h, der_accepts (rsaPrivateKey k) ?_,
    beVal_derInteger _, beVal_derInteger _⟩
  have := inner_length_octet [.integer [0#8], algorithm] (der (rsaPrivateKey k))
  unfold privateKeyInfo at h
  simp only [List.cons_append, List.nil_append] at this
  omega

theorem isPublic_der (n e : Nat) (h : (der (subjectPublicKeyInfo n e)).length < 2 ^ 64) :
    IsPublic (der (subjectPublicKeyInfo n e)) n e := by
  refine ⟨der (rsaPublicKey n e), derInteger n, derInteger e, der_accepts _ h, der_accepts (rsaPublicKey n e) ?_,
    beVal_derInteger _, beVal_derInteger _⟩
  have := inner_length_bits [algorithm] (der (rsaPublicKey n e)) 0#8
  unfold subjectPublicKeyInfo at h
  simp only [List.cons_append, List.nil_append] at this
  omega

end Verif.Model.Pem
