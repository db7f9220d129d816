import Verif.Proof.Asn1Errors
import Verif.Proof.Keys
import Verif.Spec.KeyErrors

/-! # Rejected key structures -/

namespace Verif.Model.RsaAsn1
open Verif Verif.Model.Big Verif.Model.Asn1 Verif.Spec.Asn1 Verif.Spec.Big Verif.Spec.Keys

theorem rejected_iff (bytes : List U8) (e : Asn1.Error) : tryFrom bytes = .ok (.error e) ↔ Rejected bytes e :=
  tryFrom_error_iff bytes e

theorem allIntegers (l : List Asn1) (h : ¬ ∃ x ∈ l, ∀ b, x ≠ .integer b) : ∃ bs : List (List U8), l = bs.map .integer := by
  induction l with
  | nil => exact ⟨[], rfl⟩
  | cons x l ih =>
    obtain ⟨bs, rfl⟩ := ih (fun ⟨y, hy, hb⟩ => h ⟨y, by simp [hy], hb⟩)
    have : ∃ b, x = .integer b := by
      by_contra hx
      exact h ⟨x, by simp, fun b hb => hx ⟨b, hb⟩⟩
    obtain ⟨b, rfl⟩ := this
    exact ⟨b :: bs, rfl⟩

theorem length_eight {α : Type} (l : List α) (h : l.length = 8) : ∃ a b c d e f g i, l = [a, b, c, d, e, f, g, i] := by
  match l, h with
  | [a, b, c, d, e, f, g, i], _ => exact ⟨a, b, c, d, e, f, g, i, rfl⟩

theorem seq_or (t : Asn1) : (∃ l, t = .sequence l) ∨ ∀ l, t ≠ .sequence l := by
  by_cases h : ∃ l, t = .sequence l
  · exact Or.inl h
  · exact Or.inr fun l hl => h ⟨l, hl⟩

/-! ## The innermost structures -/

theorem rsaPrivate_notSeq (t : Asn1) (h : ∀ l, t ≠ .sequence l) : PrivateKey.fromAsn1 t = .ok (.error (.notASequence t)) := by
  unfold PrivateKey.fromAsn1
  split
  · exact absurd rfl (h _)
  · rfl

theorem rsaPrivate_number (l : List Asn1) (h : l.length ≠ 9) :
    PrivateKey.fromAsn1 (.sequence l) = .ok (.error .expected9Elements) := by
  unfold PrivateKey.fromAsn1
  simp only
  rw [if_pos h]
  rfl

theorem rsaPrivate_integers (l : List Asn1) (h : l.length = 9) (hx : ∃ x ∈ l, ∀ b, x ≠ .integer b) :
    PrivateKey.fromAsn1 (.sequence l) = .ok (.error .expectedIntegers) := by
  unfold PrivateKey.fromAsn1
  simp only
  rw [if_neg (by simpa using h)]
  split
  · obtain ⟨x, hm, hb⟩ := hx
    simp only [List.mem_cons, List.not_mem_nil, or_false] at hm
    rcases hm with rfl | rfl | rfl | rfl | rfl | rfl | rfl | rfl | rfl <;> exact absurd rfl (hb _)
  · rfl

theorem rsaPrivate_version (v : List U8) (numbers : List (List U8)) (h : numbers.length = 8) (hv : v.length ≠ 1) :
    PrivateKey.fromAsn1 (.sequence ((v :: numbers).map .integer)) = .ok (.error .versionNotOneByte) := by
  obtain ⟨a, b, c, d, e, f, g, i, rfl⟩ := length_eight numbers h
  unfold PrivateKey.fromAsn1
  simp only [List.map_cons, List.map_nil, List.length_cons, List.length_nil]
  rw [if_neg (by simp), if_pos hv]
  rfl

theorem rsaPrivate_error_iff (t : Asn1) (e : Error) :
    PrivateKey.fromAsn1 t = .ok (.error e) ↔ BadRsaPrivateKey t e := by
  constructor
  · intro h
    rcases seq_or t with ⟨l, rfl⟩ | hs
    · by_cases hl : l.length = 9
      · by_cases hx : ∃ x ∈ l, ∀ b, x ≠ .integer b
        · rw [rsaPrivate_integers l hl hx] at h
          cases h
          exact .notIntegers _ _ (.notAllIntegers l hl hx)
        · obtain ⟨bs, rfl⟩ := allIntegers l hx
          match bs, hl with
          | v :: numbers, hl =>
            simp only [List.length_map, List.length_cons] at hl
            by_cases hv : v.length = 1
            · obtain ⟨w, rfl⟩ := List.length_eq_one_iff.1 hv
              obtain ⟨a, b, c, d, e, f, g, i, rfl⟩ := length_eight numbers (by omega)
              rw [show List.map Asn1.integer [[w], a, b, c, d, e, f, g, i] = [.integer [w], .integer a, .integer b,
                .integer c, .integer d, .integer e, .integer f, .integer g, .integer i] from rfl, privateKey_ok] at h
              cases h
            · rw [rsaPrivate_version v numbers (by omega) hv] at h
              cases h
              exact .version v numbers (by omega) hv
      · rw [rsaPrivate_number l hl] at h
        cases h
        exact .notIntegers _ _ (.wrongNumber l hl)
    · rw [rsaPrivate_notSeq t hs] at h
      cases h
      exact .notIntegers _ _ (.notASequence t hs)
  · rintro (⟨_, _, h⟩ | ⟨v, numbers, h, hv⟩)
    · cases h with
      | notASequence _ h => exact rsaPrivate_notSeq _ h
      | wrongNumber l h => exact rsaPrivate_number _ h
      | notAllIntegers l h hx => exact rsaPrivate_integers _ h hx
    · exact rsaPrivate_version v numbers h hv

theorem rsaPublic_error_iff (t : Asn1) (e : Error) :
    PublicKey.fromAsn1 t = .ok (.error e) ↔ NotIntegers 2 .expected2Elements t e := by
  have h1 : ∀ t, (∀ l, t ≠ .sequence l) → PublicKey.fromAsn1 t = .ok (.error (.notASequence t)) := by
    intro t h
    unfold PublicKey.fromAsn1
    split
    · exact absurd rfl (h _)
    · rfl
  have h2 : ∀ l : List Asn1, l.length ≠ 2 → PublicKey.fromAsn1 (.sequence l) = .ok (.error .expected2Elements) := by
    intro l h
    unfold PublicKey.fromAsn1
    simp only
    rw [if_pos h]
    rfl
  have h3 : ∀ l : List Asn1, l.length = 2 → (∃ x ∈ l, ∀ b, x ≠ .integer b) →
      PublicKey.fromAsn1 (.sequence l) = .ok (.error .expectedIntegers) := by
    intro l h hx
    unfold PublicKey.fromAsn1
    simp only
    rw [if_neg (by simpa using h)]
    split
    · obtain ⟨x, hm, hb⟩ := hx
      simp only [List.mem_cons, List.not_mem_nil, or_false] at hm
      rcases hm with rfl | rfl <;> exact absurd rfl (hb _)
    · rfl
  constructor
  · intro h
    rcases seq_or t with ⟨l, rfl⟩ | hs
    · by_cases hl : l.length = 2
      · by_cases hx : ∃ x ∈ l, ∀ b, x ≠ .integer b
        · rw [h3 l hl hx] at h
          cases h
          exact .notAllIntegers l hl hx
        · obtain ⟨bs, rfl⟩ := allIntegers l hx
          match bs, hl with
          | [a, b], _ =>
            rw [show List.map Asn1.integer [a, b] = [.integer a, .integer b] from rfl, publicKey_ok] at h
            cases h
      · rw [h2 l hl] at h
        cases h
        exact .wrongNumber l hl
    · rw [h1 t hs] at h
      cases h
      exact .notASequence t hs
  · rintro (⟨_, h⟩ | ⟨l, h⟩ | ⟨l, h, hx⟩)
    · exact h1 _ h
    · exact h2 _ h
    · exact h3 _ h hx

/-! ## The algorithm -/

/-- The conversion of the algorithm identifier together with the comparison of the identifier. -/
def algorithmStep (other : Error) (t : Asn1) : Except Error AlgorithmIdentifier :=
  match AlgorithmIdentifier.fromAsn1 t with
  | .error e => .error e
  | .ok a => if a.algorithm ≠ rsaOid then .error other else .ok a

theorem algorithmStep_cases (other : Error) (t : Asn1) :
    (t = algorithm ∧ algorithmStep other t = .ok ⟨rsaOid⟩ ∧ ∀ e, ¬ BadAlgorithm other t e) ∨
    ∃ e, algorithmStep other t = .error e ∧ ∀ e', BadAlgorithm other t e' ↔ e' = e := by
  rcases seq_or t with ⟨l, rfl⟩ | hs
  · by_cases hl : ∃ oid, l = [.objectIdentifier oid, .null]
    · obtain ⟨oid, rfl⟩ := hl
      have ha : AlgorithmIdentifier.fromAsn1 (.sequence [.objectIdentifier oid, .null]) = .ok ⟨oid⟩ := rfl
      by_cases ho : oid = rsaOid
      · left
        refine ⟨by rw [ho, ← rsaOid_eq]; rfl, ?_, ?_⟩
        · unfold algorithmStep
          rw [ha]
          simp only
          rw [if_neg (by simpa using ho), ho]
        · intro e h
          cases h with
          | notASequence _ h => exact h _ rfl
          | noIdentifier _ h => exact h _ rfl
          | notRsa _ h => exact h (by rw [ho, rsaOid_eq])
      · right
        refine ⟨other, ?_, ?_⟩
        · unfold algorithmStep
          rw [ha]
          simp only
          rw [if_pos ho]
        · intro e
          constructor
          · intro h
            cases h with
            | notASequence _ h => exact absurd rfl (h _)
            | noIdentifier _ h => exact absurd rfl (h _)
            | notRsa _ h => rfl
          · rintro rfl
            exact .notRsa oid (by rw [rsaOid_eq]; exact ho)
    · right
      refine ⟨.expectedObjectIdentifier, ?_, ?_⟩
      · unfold algorithmStep AlgorithmIdentifier.fromAsn1
        simp only
        split
        · rename_i h
          split at h
          · exact absurd ⟨_, rfl⟩ hl
          · exact congrArg _ (Except.error.inj h).symm
        · rename_i h
          split at h
          · exact absurd ⟨_, rfl⟩ hl
          · cases h
      · intro e
        constructor
        · intro h
          cases h with
          | notASequence _ h => exact absurd rfl (h _)
          | noIdentifier _ h => rfl
          | notRsa _ h => exact absurd ⟨_, rfl⟩ hl
        · rintro rfl
          exact .noIdentifier l fun oid h => hl ⟨oid, h⟩
  · right
    refine ⟨.expectedSequence, ?_, ?_⟩
    · unfold algorithmStep AlgorithmIdentifier.fromAsn1
      split
      · rename_i h
        split at h
        · exact absurd rfl (hs _)
        · exact congrArg _ (Except.error.inj h).symm
      · rename_i h
        split at h
        · exact absurd rfl (hs _)
        · cases h
    · intro e
      constructor
      · intro h
        cases h with
        | notASequence _ h => rfl
        | noIdentifier l h => exact absurd rfl (hs _)
        | notRsa _ h => exact absurd rfl (hs _)
      · rintro rfl
        exact .notASequence t hs

/-! ## The outer structures -/

theorem privateInfo_three (a b c : Asn1) : PrivateKeyInfo.fromAsn1 (.sequence [a, b, c]) =
    if ¬ isZero a then .ok (.error .versionNotZero)
    else match algorithmStep .privateAlgorithmNotRsa b with
      | .error e => .ok (.error e)
      | .ok _ => match c with
        | .octetString inner => PrivateKeyInfo.fromAsn1 (.sequence [.integer [0#8], algorithm, .octetString inner])
        | _ => .ok (.error .notAnOctetString) := by
  have h0 : idx [a, b, c] 0 = .ok a := rfl
  have h1 : idx [a, b, c] 1 = .ok b := rfl
  have h2 : idx [a, b, c] 2 = .ok c := rfl
  by_cases hz : isZero a = true
  · rw [if_neg (by simp [hz])]
    have hz' := (isZero_iff a).1 hz
    rcases algorithmStep_cases .privateAlgorithmNotRsa b with ⟨hb, hs, _⟩ | ⟨e, hs, _⟩
    · rw [hs]
      cases c with
      | octetString inner => rw [hz', hb]
      | _ =>
        unfold PrivateKeyInfo.fromAsn1
        unfold algorithmStep at hs
        simp only [List.length_cons, List.length_nil, h0, h1, h2, bind, Except.bind, pure, Except.pure]
        rw [if_neg (by simp), if_neg (by simp [hz])]
        rcases ha : AlgorithmIdentifier.fromAsn1 b with e | al
        · rw [ha] at hs; cases hs
        · rw [ha] at hs
          simp only at hs ⊢
          by_cases ho : al.algorithm ≠ rsaOid
          · rw [if_pos ho] at hs; cases hs
          · rw [if_neg ho]
    · rw [hs]
      unfold PrivateKeyInfo.fromAsn1
      unfold algorithmStep at hs
      simp only [List.length_cons, List.length_nil, h0, h1, h2, bind, Except.bind, pure, Except.pure]
      rw [if_neg (by simp), if_neg (by simp [hz])]
      rcases ha : AlgorithmIdentifier.fromAsn1 b with e' | al
      · rw [ha] at hs
        simp only at hs ⊢
        rw [Except.error.inj hs]
      · rw [ha] at hs
        simp only at hs ⊢
        by_cases ho : al.algorithm ≠ rsaOid
        · rw [if_pos ho] at hs ⊢
          rw [Except.error.inj hs]
        · rw [if_neg ho] at hs; cases hs
  · rw [if_pos (by simpa using hz)]
    unfold PrivateKeyInfo.fromAsn1
    simp only [List.length_cons, List.length_nil, h0, bind, Except.bind, pure, Except.pure]
    rw [if_neg (by simp), if_pos (by simpa using hz)]

theorem privateInfo_error_iff (t : Asn1) (e : Error) : PrivateKeyInfo.fromAsn1 t = .ok (.error e) ↔ BadPrivate t e := by
  rcases seq_or t with ⟨l, rfl⟩ | hs
  swap
  · have : PrivateKeyInfo.fromAsn1 t = .ok (.error (.notASequence t)) := by
      unfold PrivateKeyInfo.fromAsn1
      split
      · exact absurd rfl (hs _)
      · rfl
    rw [this]
    constructor
    · intro h; cases h; exact .notASequence t hs
    · intro h
      cases h with
      | notASequence _ _ => rfl
      | _ => exact absurd rfl (hs _)
  by_cases hl : l.length ≠ 3
  · have : PrivateKeyInfo.fromAsn1 (.sequence l) = .ok (.error .expectedThreeElements) := by
      unfold PrivateKeyInfo.fromAsn1
      simp only
      rw [if_pos hl]
      rfl
    rw [this]
    constructor
    · intro h; cases h; exact .wrongNumber l hl
    · intro h
      cases h with
      | notASequence _ h => exact absurd rfl (h _)
      | wrongNumber _ _ => rfl
      | _ => simp at hl
  obtain ⟨a, b, c, rfl⟩ := List.length_eq_three.1 (not_not.1 hl)
  rw [privateInfo_three]
  by_cases hz : isZero a = true
  swap
  · rw [if_pos (by simpa using hz)]
    have hz' : a ≠ .integer [0#8] := fun h => hz ((isZero_iff a).2 h)
    constructor
    · intro h; cases h; exact .version a b c hz'
    · intro h
      cases h with
      | notASequence _ h => exact absurd rfl (h _)
      | wrongNumber _ h => simp at h
      | version _ _ _ _ => rfl
      | _ => exact absurd rfl hz'
  rw [if_neg (by simp [hz])]
  rw [isZero_iff] at hz
  subst hz
  rcases algorithmStep_cases .privateAlgorithmNotRsa b with ⟨hb, hs, hn⟩ | ⟨e0, hs, hn⟩
  swap
  · rw [hs]
    simp only
    constructor
    · intro h; cases h; exact .algorithm b c e ((hn e).2 rfl)
    · intro h
      have hal : ¬ ∀ e, ¬ BadAlgorithm .privateAlgorithmNotRsa b e := fun h => h e0 ((hn e0).2 rfl)
      have hna : b ≠ algorithm := by
        rintro rfl
        rcases algorithmStep_cases .privateAlgorithmNotRsa algorithm with ⟨_, h1, h2⟩ | ⟨e1, h1, h2⟩
        · exact hal h2
        · have : algorithmStep .privateAlgorithmNotRsa algorithm = .ok ⟨rsaOid⟩ := by rfl
          rw [this] at h1
          cases h1
      cases h with
      | notASequence _ h => exact absurd rfl (h _)
      | wrongNumber _ h => simp at h
      | version _ _ _ h => exact absurd rfl h
      | algorithm _ _ _ h => rw [(hn e).1 h]
      | _ => exact absurd rfl hna
  rw [hs]
  subst hb
  have hcase : (∃ inner, c = .octetString inner) ∨ ∀ b, c ≠ .octetString b := by
    by_cases h : ∃ inner, c = .octetString inner
    · exact Or.inl h
    · exact Or.inr fun b hb => h ⟨b, hb⟩
  rcases hcase with ⟨inner, rfl⟩ | hc
  swap
  · have : (match c with
        | .octetString inner => PrivateKeyInfo.fromAsn1 (.sequence [.integer [0#8], algorithm, .octetString inner])
        | _ => .ok (.error .notAnOctetString)) = .ok (.error .notAnOctetString) := by
      split
      · exact absurd rfl (hc _)
      · rfl
    simp only [this]
    constructor
    · intro h; cases h; exact .notAnOctetString c hc
    · intro h
      cases h with
      | notASequence _ h => exact absurd rfl (h _)
      | wrongNumber _ h => simp at h
      | version _ _ _ h => exact absurd rfl h
      | algorithm _ _ _ h => exact absurd h (hn e)
      | notAnOctetString _ _ => rfl
      | _ => exact absurd rfl (hc _)
  simp only [privateInfo_good]
  constructor
  · intro h
    rcases ht : tryFrom inner with p | e1 | t
    · rw [ht] at h; cases h
    · rw [ht] at h
      cases h
      exact .asn1 inner e1 ((rejected_iff inner e1).1 ht)
    · rw [ht] at h
      simp only at h
      rcases hk : PrivateKey.fromAsn1 t with p | e1 | k
      · rw [hk] at h; cases h
      · rw [hk] at h
        cases h
        exact .key inner t e1 ((tryFrom_ok_iff inner t).1 ht) ((rsaPrivate_error_iff t e1).1 hk)
      · rw [hk] at h; cases h
  · intro h
    cases h with
    | notASequence _ h => exact absurd rfl (h _)
    | wrongNumber _ h => simp at h
    | version _ _ _ h => exact absurd rfl h
    | algorithm _ _ _ h => exact absurd h (hn e)
    | notAnOctetString _ h => exact absurd rfl (h _)
    | asn1 _ e1 h => rw [(rejected_iff inner e1).2 h]
    | key _ t e1 h1 h2 =>
      rw [(tryFrom_ok_iff inner t).2 h1]
      simp only
      rw [(rsaPrivate_error_iff t e1).2 h2]

theorem publicInfo_two (a c : Asn1) : SubjectPublicKeyInfo.fromAsn1 (.sequence [a, c]) =
    match algorithmStep .algorithmNotRsa a with
      | .error e => .ok (.error e)
      | .ok _ => match c with
        | .bitString inner u => if u ≠ 0#8 then .ok (.error .unusedBits)
          else SubjectPublicKeyInfo.fromAsn1 (.sequence [algorithm, .bitString inner 0#8])
        | _ => .ok (.error .notABitString) := by
  have h0 : idx [a, c] 0 = .ok a := rfl
  have h1 : idx [a, c] 1 = .ok c := rfl
  rcases algorithmStep_cases .algorithmNotRsa a with ⟨hb, hs, _⟩ | ⟨e, hs, _⟩
  · rw [hs]
    have hgo : ∃ al, AlgorithmIdentifier.fromAsn1 a = .ok al ∧ ¬ al.algorithm ≠ rsaOid := by
      unfold algorithmStep at hs
      rcases ha : AlgorithmIdentifier.fromAsn1 a with e | al
      · rw [ha] at hs; cases hs
      · rw [ha] at hs
        simp only at hs
        by_cases ho : al.algorithm ≠ rsaOid
        · rw [if_pos ho] at hs; cases hs
        · exact ⟨al, rfl, ho⟩
    obtain ⟨al, ha, ho⟩ := hgo
    cases c with
    | bitString inner u =>
      simp only
      by_cases hu : u ≠ 0#8
      · rw [if_pos hu]
        unfold SubjectPublicKeyInfo.fromAsn1
        simp only [List.length_cons, List.length_nil, h0, h1, bind, Except.bind, pure, Except.pure, ha]
        rw [if_neg (by simp), if_neg ho, if_pos hu]
      · rw [if_neg hu, hb, not_not.1 hu]
    | _ =>
      unfold SubjectPublicKeyInfo.fromAsn1
      simp only [List.length_cons, List.length_nil, h0, h1, bind, Except.bind, pure, Except.pure, ha]
      rw [if_neg (by simp), if_neg ho]
  · rw [hs]
    unfold SubjectPublicKeyInfo.fromAsn1
    unfold algorithmStep at hs
    simp only [List.length_cons, List.length_nil, h0, h1, bind, Except.bind, pure, Except.pure]
    rw [if_neg (by simp)]
    rcases ha : AlgorithmIdentifier.fromAsn1 a with e' | al
    · rw [ha] at hs
      simp only at hs ⊢
      rw [Except.error.inj hs]
    · rw [ha] at hs
      simp only at hs ⊢
      by_cases ho : al.algorithm ≠ rsaOid
      · rw [if_pos ho] at hs ⊢
        rw [Except.error.inj hs]
      · rw [if_neg ho] at hs; cases hs

theorem publicInfo_error_iff (t : Asn1) (e : Error) :
    SubjectPublicKeyInfo.fromAsn1 t = .ok (.error e) ↔ BadPublic t e := by
  rcases seq_or t with ⟨l, rfl⟩ | hs
  swap
  · have : SubjectPublicKeyInfo.fromAsn1 t = .ok (.error (.notASequence t)) := by
      unfold SubjectPublicKeyInfo.fromAsn1
      split
      · exact absurd rfl (hs _)
      · rfl
    rw [this]
    constructor
    · intro h; cases h; exact .notASequence t hs
    · intro h
      cases h with
      | notASequence _ _ => rfl
      | _ => exact absurd rfl (hs _)
  by_cases hl : l.length ≠ 2
  · have : SubjectPublicKeyInfo.fromAsn1 (.sequence l) = .ok (.error .expectedTwoElements) := by
      unfold SubjectPublicKeyInfo.fromAsn1
      simp only
      rw [if_pos hl]
      rfl
    rw [this]
    constructor
    · intro h; cases h; exact .wrongNumber l hl
    · intro h
      cases h with
      | notASequence _ h => exact absurd rfl (h _)
      | wrongNumber _ _ => rfl
      | _ => simp at hl
  obtain ⟨b, c, rfl⟩ := List.length_eq_two.1 (not_not.1 hl)
  rw [publicInfo_two]
  rcases algorithmStep_cases .algorithmNotRsa b with ⟨hb, hs, hn⟩ | ⟨e0, hs, hn⟩
  swap
  · rw [hs]
    simp only
    constructor
    · intro h; cases h; exact .algorithm b c e ((hn e).2 rfl)
    · intro h
      have hna : b ≠ algorithm := by
        rintro rfl
        have : algorithmStep .algorithmNotRsa algorithm = .ok ⟨rsaOid⟩ := by rfl
        rw [this] at hs
        cases hs
      cases h with
      | notASequence _ h => exact absurd rfl (h _)
      | wrongNumber _ h => simp at h
      | algorithm _ _ _ h => rw [(hn e).1 h]
      | _ => exact absurd rfl hna
  rw [hs]
  subst hb
  have hcase : (∃ inner u, c = .bitString inner u) ∨ ∀ b u, c ≠ .bitString b u := by
    by_cases h : ∃ inner u, c = .bitString inner u
    · exact Or.inl h
    · exact Or.inr fun b u hb => h ⟨b, u, hb⟩
  rcases hcase with ⟨inner, u, rfl⟩ | hc
  swap
  · have key : ∀ r : R (Except Error SubjectPublicKeyInfo), r = .ok (.error .notABitString) →
        (r = .ok (.error e) ↔ BadPublic (.sequence [algorithm, c]) e) := by
      rintro r rfl
      constructor
      · intro h; cases h; exact .notABitString c hc
      · intro h
        cases h with
        | notASequence _ h => exact absurd rfl (h _)
        | wrongNumber _ h => simp at h
        | algorithm _ _ _ h => exact absurd h (hn e)
        | notABitString _ _ => rfl
        | _ => exact absurd rfl (hc _ _)
    cases c with
    | bitString a u => exact absurd rfl (hc a u)
    | _ => exact key _ rfl
  simp only
  by_cases hu : u ≠ 0#8
  · rw [if_pos hu]
    constructor
    · intro h; cases h; exact .unusedBits inner u hu
    · intro h
      cases h with
      | notASequence _ h => exact absurd rfl (h _)
      | wrongNumber _ h => simp at h
      | algorithm _ _ _ h => exact absurd h (hn e)
      | notABitString _ h => exact absurd rfl (h _ _)
      | unusedBits _ _ _ => rfl
      | _ => exact absurd rfl hu
  rw [if_neg hu, publicInfo_good]
  rw [not_not] at hu
  subst hu
  constructor
  · intro h
    rcases ht : tryFrom inner with p | e1 | t
    · rw [ht] at h; cases h
    · rw [ht] at h
      cases h
      exact .asn1 inner e1 ((rejected_iff inner e1).1 ht)
    · rw [ht] at h
      simp only at h
      rcases hk : PublicKey.fromAsn1 t with p | e1 | k
      · rw [hk] at h; cases h
      · rw [hk] at h
        cases h
        exact .key inner t e1 ((tryFrom_ok_iff inner t).1 ht) ((rsaPublic_error_iff t e1).1 hk)
      · rw [hk] at h; cases h
  · intro h
    cases h with
    | notASequence _ h => exact absurd rfl (h _)
    | wrongNumber _ h => simp at h
    | algorithm _ _ _ h => exact absurd h (hn e)
    | notABitString _ h => exact absurd rfl (h _ _)
    | unusedBits _ _ h => exact absurd rfl h
    | asn1 _ e1 h => rw [(rejected_iff inner e1).2 h]
    | key _ t e1 h1 h2 =>
      rw [(tryFrom_ok_iff inner t).2 h1]
      simp only
      rw [(rsaPublic_error_iff t e1).2 h2]

end Verif.Model.RsaAsn1
