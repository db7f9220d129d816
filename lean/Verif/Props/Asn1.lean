import Verif.Proof.Asn1

/-! # C57–C60, C74–C76: the ASN.1 parser -/

namespace Verif.Props
open Verif Verif.Model.Asn1 Verif.Spec.Asn1

/-! ## C57 -/

/-- C57: parsing the DER encoding of any tree gives the tree back. (An encoding longer than `usize` cannot exist as a
slice.) -/
theorem C57_parse_der (t : Asn1) (h : (der t).length < 2 ^ 64) : tryFrom (der t) = .ok (.ok t) :=
  (tryFrom_ok_iff _ _).2 (der_accepts t h)

/-- The second example of the project's tests, and a long-form length. -/
example : der (.sequence [.integer [4#8], .sequence [.integer [6#8, 7#8, 8#8, 9#8]]]) =
    [0x30#8, 0x0b#8, 2#8, 1#8, 4#8, 0x30#8, 6#8, 2#8, 4#8, 6#8, 7#8, 8#8, 9#8] := by decide +kernel
example : tryFrom [0x30#8, 0x0b#8, 2#8, 1#8, 4#8, 0x30#8, 6#8, 2#8, 4#8, 6#8, 7#8, 8#8, 9#8] =
    .ok (.ok (.sequence [.integer [4#8], .sequence [.integer [6#8, 7#8, 8#8, 9#8]]])) := by rfl
example : (der (.octetString (List.replicate 300 7#8))).take 5 = [4#8, 0x82#8, 1#8, 44#8, 7#8] := by decide +kernel
example : (der (.octetString (List.replicate 300 7#8))).length < 2 ^ 64 := by decide +kernel

/-- C57: different trees have different encodings. -/
theorem C57_der_injective (t u : Asn1) (ht : (der t).length < 2 ^ 64) (h : der t = der u) : t = u := by
  have h1 := C57_parse_der t ht
  have h2 := C57_parse_der u (h ▸ ht)
  rw [h, h2] at h1
  exact (Except.ok.inj (Except.ok.inj h1)).symm

/-- An integer and an octet string of the same bytes. -/
example : der (.integer [7#8]) ≠ der (.octetString [7#8]) := fun h =>
  nomatch C57_der_injective (.integer [7#8]) (.octetString [7#8]) (by decide +kernel) h

/-! ## C58 -/

/-- C58: parsing returns a tree exactly if the bytes are an encoding of it: tag, length field, exactly the declared number
of content bytes, and nothing behind (`Accepts` in the specification). -/
theorem C58_ok_iff (bytes : List U8) (t : Asn1) : tryFrom bytes = .ok (.ok t) ↔ Accepts bytes t := tryFrom_ok_iff bytes t

/-- C58: parsing terminates on every byte string (the model's loop budget never runs out). -/
theorem C58_terminates (bytes : List U8) : tryFrom bytes ≠ .error .diverged := tryFrom_terminates bytes

/-- C58: an accepted encoding followed by anything is an error. -/
theorem C58_trailing_bytes (bytes extra : List U8) (t : Asn1) (h : Accepts bytes t) (he : extra ≠ []) :
    tryFrom (bytes ++ extra) = .ok (.error .extraBytes) := by
  unfold tryFrom
  rw [parse_complete ((bytes ++ extra).length + 1) bytes t extra h (by rw [List.length_append]; omega)]
  simp only [bind, Except.bind]
  rw [if_pos he]
  rfl

example : Accepts [4#8, 2#8, 8#8, 9#8] (.octetString [8#8, 9#8]) :=
  (C58_ok_iff _ _).1 rfl
example : tryFrom [4#8, 2#8, 8#8, 9#8, 0#8] = .ok (.error .extraBytes) := by rfl

/-! ## C59 -/

/-- C59 is false: an empty bit string panics. -/
theorem C59_false : tryFrom [3#8, 0#8] = .error .index := by rfl
/-- C59 is false: so do a length of 17 bytes and a length field that is cut off. -/
theorem C59_false_long_length : tryFrom [2#8, 0x91#8] = .error .overflow ∧ tryFrom [2#8, 0x82#8, 0#8] = .error .index :=
  ⟨rfl, rfl⟩

/-- C59, the part that holds: on inputs without an empty bit string, a length field with more than 16 digits or a cut-off
length field (at a place that is reached), parsing does not panic. -/
theorem C59_no_panic_partial (bytes : List U8) (h : ¬ Panics bytes) : ∃ r, tryFrom bytes = .ok r := by
  rcases hr : tryFrom bytes with p | r
  · exact absurd ((tryFrom_panics_iff bytes).1 ⟨p, hr⟩) h
  · exact ⟨r, rfl⟩

/-- Not vacuous: a good encoding and a bad one that is an error. -/
example : ¬ Panics [2#8, 1#8, 9#8] := fun h => by
  obtain ⟨p, hp⟩ := (tryFrom_panics_iff _).2 h
  cases hp
example : ¬ Panics [0x30#8, 4#8, 2#8, 1#8, 9#8, 7#8] := fun h => by
  obtain ⟨p, hp⟩ := (tryFrom_panics_iff _).2 h
  cases hp

/-! ## C60 -/

/-- C60 is false: lengths are reduced modulo 2^64. This octet string declares 2^64 + 3 bytes and is accepted with 3. -/
theorem C60_false : Declares [0x89#8, 1#8, 0#8, 0#8, 0#8, 0#8, 0#8, 0#8, 0#8, 3#8] (2 ^ 64 + 3) ∧
    tryFrom [4#8, 0x89#8, 1#8, 0#8, 0#8, 0#8, 0#8, 0#8, 0#8, 0#8, 3#8, 10#8, 11#8, 12#8] =
      .ok (.ok (.octetString [10#8, 11#8, 12#8])) :=
  ⟨.long 0x89#8 [1#8, 0#8, 0#8, 0#8, 0#8, 0#8, 0#8, 0#8, 3#8] rfl, rfl⟩

/-- C60, the part that holds: a value that declares more bytes than follow is rejected, if the declared number is below
2^64. -/
theorem C60_too_little_partial (tag : U8) (lf rest : List U8) (n : Nat) (hd : Declares lf n) (hl : lf.length ≤ 17)
    (hn : n < 2 ^ 64) (h : rest.length < n) :
    tryFrom (tag :: lf ++ rest) = .ok (.error (.tooLittleData tag n rest.length)) := by
  unfold tryFrom
  rw [parse_too_little _ tag lf rest n ⟨hl, n, hd, (Nat.mod_eq_of_lt hn).symm⟩ h]
  rfl

example : Declares [0x82#8, 1#8, 0#8] 256 := .long 0x82#8 [1#8, 0#8] rfl
example : tryFrom [4#8, 0x82#8, 1#8, 0#8, 7#8] = .ok (.error (.tooLittleData 4#8 256 1)) := by rfl

/-! ## C74 -/

/-- No encoding in the accepted language is the beginning of another one. -/
theorem accepts_prefix_free (a b r s : List U8) (t u : Asn1) (ha : Accepts a t) (hb : Accepts b u) (h : a ++ r = b ++ s) :
    a = b ∧ t = u ∧ r = s := by
  have h1 := parse_complete (a.length + b.length + 1) a t r ha (by omega)
  have h2 := parse_complete (a.length + b.length + 1) b u s hb (by omega)
  rw [h, h2] at h1
  have h3 := Except.ok.inj (Except.ok.inj h1)
  have ht : t = u := (Prod.mk.inj h3).1.symm
  have hr : r = s := (Prod.mk.inj h3).2.symm
  subst hr
  exact ⟨List.append_cancel_right h, ht, rfl⟩

/-- C74: no byte string that the parser accepts is the beginning of another one: a value can be cut off the front of a byte
string in one way only, and its value is determined. -/
theorem C74_prefix_free (a b r s : List U8) (t u : Asn1) (ha : tryFrom a = .ok (.ok t)) (hb : tryFrom b = .ok (.ok u))
    (h : a ++ r = b ++ s) : a = b ∧ t = u ∧ r = s :=
  accepts_prefix_free a b r s t u ((C58_ok_iff a t).1 ha) ((C58_ok_iff b u).1 hb) h

/-- Null and an integer, read from the beginnings of the same bytes. -/
example (r s : List U8) : [5#8, 0#8] ++ r ≠ [2#8, 1#8, 7#8] ++ s := fun h =>
  nomatch (C74_prefix_free [5#8, 0#8] [2#8, 1#8, 7#8] r s .null (.integer [7#8]) rfl rfl h).2.1

/-- C74: a sequence of accepted encodings can be cut into encodings in one way only. -/
theorem C74_sequences (as bs : List (List U8)) (ha : ∀ a ∈ as, ∃ t, tryFrom a = .ok (.ok t))
    (hb : ∀ b ∈ bs, ∃ t, tryFrom b = .ok (.ok t)) (h : as.flatten = bs.flatten) : as = bs := by
  have hne : ∀ a t, tryFrom a = .ok (.ok t) → a ≠ [] := by
    rintro _ t h rfl
    cases h
  induction as generalizing bs with
  | nil =>
    cases bs with
    | nil => rfl
    | cons b bs =>
      obtain ⟨t, ht⟩ := hb b (by simp)
      simp only [List.flatten_nil, List.flatten_cons] at h
      exact absurd (List.append_eq_nil_iff.1 h.symm).1 (hne b t ht)
  | cons a as ih =>
    obtain ⟨t, ht⟩ := ha a (by simp)
    cases bs with
    | nil =>
      simp only [List.flatten_nil, List.flatten_cons] at h
      exact absurd (List.append_eq_nil_iff.1 h).1 (hne a t ht)
    | cons b bs =>
      obtain ⟨u, hu⟩ := hb b (by simp)
      simp only [List.flatten_cons] at h
      obtain ⟨rfl, _, h3⟩ := C74_prefix_free a b _ _ t u ht hu h
      rw [ih bs (fun x hx => ha x (by simp [hx])) (fun x hx => hb x (by simp [hx])) h3]

/-- C74: what the parser returns for a sequence is what it returns for the pieces of its contents, in order, for every way to
cut the contents into accepted pieces (there is only one). -/
theorem C74_sequence_elements (lf content : List U8) (l : List Asn1)
    (h : tryFrom (0x30#8 :: lf ++ content) = .ok (.ok (.sequence l))) (hlf : LengthField lf content.length) :
    ∃ as : List (List U8), as.flatten = content ∧ List.Forall₂ (fun a t => tryFrom a = .ok (.ok t)) as l := by
  have key : ∀ c l, AcceptsAll c l → ∃ as : List (List U8), as.flatten = c ∧
      List.Forall₂ (fun a t => tryFrom a = .ok (.ok t)) as l := by
    intro c l h
    induction l generalizing c with
    | nil => cases h; exact ⟨[], rfl, .nil⟩
    | cons t l ih =>
      cases h with
      | cons a b _ _ h1 h2 =>
        obtain ⟨as, h3, h4⟩ := ih b h2
        exact ⟨a :: as, by simp [h3], .cons ((C58_ok_iff a t).2 h1) h4⟩
  have h1 := (C58_ok_iff _ _).1 h
  generalize hx : 0x30#8 :: lf ++ content = x at h1
  cases h1 with
  | sequence lf' content' _ hlf' hall =>
    have e : lf ++ content = lf' ++ content' := (List.cons.inj hx).2
    have := key content' l hall
    have h2 : Accepts (0x04#8 :: lf ++ content) (.octetString content) := .octetString lf content hlf
    have h3 : Accepts (0x04#8 :: lf' ++ content') (.octetString content') := .octetString lf' content' hlf'
    have h4 := accepts_prefix_free _ _ [] [] _ _ h2 h3 (by simp [e])
    have h5 := h4.2.1
    simp only [Asn1.octetString.injEq] at h5
    rw [h5]
    exact this

example : Accepts [5#8, 0#8] .null ∧ Accepts [2#8, 1#8, 7#8] (.integer [7#8]) :=
  ⟨(C58_ok_iff _ _).1 rfl, (C58_ok_iff _ _).1 rfl⟩

/-! ## C75 -/

/-- C75: the panics of the parser, exactly. -/
theorem C75_panics_iff (bytes : List U8) : (∃ p, tryFrom bytes = .error p) ↔ Panics bytes := tryFrom_panics_iff bytes

/-- A panic deep inside a sequence. -/
example : Panics [0x30#8, 7#8, 2#8, 1#8, 9#8, 0x30#8, 2#8, 3#8, 0#8] :=
  (C75_panics_iff _).1 ⟨.index, rfl⟩
/-- The same bytes behind an error are not reached. -/
example : tryFrom [0x30#8, 4#8, 7#8, 0#8, 3#8, 0#8] = .ok (.error (.inSequence (.unknownTag 7#8))) := by rfl

/-! ## C76 -/

/-- C76: the form of the length field does not matter: any two length fields (at most 16 digits) that declare the same
number are interchangeable, whatever follows them. The result — a value, an error or a panic — is the same, so encodings
other than DER are accepted too. -/
theorem C76_length_forms (tag : U8) (lf lf' rest : List U8) (n : Nat) (h : LengthField lf n) (h' : LengthField lf' n) :
    tryFrom (tag :: lf ++ rest) = tryFrom (tag :: lf' ++ rest) := Model.Asn1.same_length tag lf lf' rest n h h'

/-- One byte and three digits for the length 1. -/
example (rest : List U8) : tryFrom (2#8 :: 1#8 :: rest) = tryFrom (2#8 :: 0x83#8 :: 0#8 :: 0#8 :: 1#8 :: rest) :=
  C76_length_forms 2#8 [1#8] [0x83#8, 0#8, 0#8, 1#8] rest 1 ⟨by decide, 1, .short 1#8 (by decide), rfl⟩
    ⟨by decide, 1, .long 0x83#8 [0#8, 0#8, 1#8] rfl, rfl⟩

/-- C76: the contents of a null value are dropped, whatever they are. -/
theorem C76_null_contents (lf content : List U8) (h : LengthField lf content.length) :
    tryFrom (5#8 :: lf ++ content) = .ok (.ok .null) := (tryFrom_ok_iff _ _).2 (.null _ _ h)

/-- C76: every one-byte length can be written in the long form with the same result, so no accepted short encoding is the
only one of its value. -/
theorem C76_not_der (tag b : U8) (hb : b.toNat < 128) (rest : List U8) :
    tryFrom (tag :: b :: rest) = tryFrom (tag :: 0x81#8 :: b :: rest) := by
  have d2 := Declares.long 0x81#8 [b] rfl
  have e2 : beVal [b] = b.toNat := by simp [beVal, leVal]
  rw [e2] at d2
  exact C76_length_forms tag [b] [0x81#8, b] rest b.toNat ⟨by simp, _, .short b hb, (Nat.mod_eq_of_lt (by omega)).symm⟩
    ⟨by simp, _, d2, (Nat.mod_eq_of_lt (by omega)).symm⟩

example : tryFrom [2#8, 0x83#8, 0#8, 0#8, 1#8, 7#8] = .ok (.ok (.integer [7#8])) := by rfl
example : tryFrom [5#8, 1#8, 7#8] = .ok (.ok .null) := by rfl
example : LengthField [0x83#8, 0#8, 0#8, 1#8] 1 := ⟨by decide, 1, .long 0x83#8 [0#8, 0#8, 1#8] rfl, rfl⟩

end Verif.Props
