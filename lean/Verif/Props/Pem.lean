import Verif.Proof.Pem

/-! # C61–C64, C68: PEM text and base64

Text is a list of characters. The specification (`Spec.Pem`) cuts a text at the line feeds and trims every line; a BEGIN or
END line is recognised by its beginning. -/

namespace Verif.Props
open Verif Verif.Model.Pem
open Verif.Spec.Pem (Plain trimmedLines beginLine endLine)

theorem beginLine_eq (label : List Char) : beginLine label = beginMark ++ label ++ dashes := by
  unfold Spec.Pem.beginLine
  rw [beginMark_eq, dashes_eq]

theorem endLine_eq (label : List Char) : endLine label = endMark ++ label ++ dashes := by
  unfold Spec.Pem.endLine
  rw [endMark_eq, dashes_eq]

/-! ## C68 -/

/-- C68: the encoder used for PEM data is that of RFC 4648 with padding. -/
theorem C68_encode (data : List U8) : Model.Base64.encode data = Spec.Base64.encode data := Model.Base64.encode_eq data

/-- C68: a text decodes to `data` exactly if it is the encoding of `data`: decoding undoes encoding, and no other text is
accepted. -/
theorem C68_decode_iff (text : List Char) (data : List U8) :
    Model.Base64.decode text = some data ↔ text = Spec.Base64.encode data := by
  rw [← C68_encode]
  constructor
  · intro h; exact (Model.Base64.encode_decode text data h).symm
  · rintro rfl; exact Model.Base64.decode_encode data

example : Spec.Base64.encode [77#8, 97#8, 110#8, 33#8] = "TWFuIQ==".toList := by decide +kernel
example : Model.Base64.decode "TWFuIQ==".toList = some [77#8, 97#8, 110#8, 33#8] := by decide +kernel
/-- Missing padding, bits behind the last byte, padding in the middle. -/
example : Model.Base64.decode "TWFuIQ".toList = none ∧ Model.Base64.decode "TWFuIR==".toList = none ∧
    Model.Base64.decode "TQ==TWFu".toList = none := by decide +kernel

/-! ## C61 -/

/-- C61: writing a PEM and reading it back gives the same label and data exactly if the label contains no line feed. -/
theorem C61_roundtrip_iff (pem : PEM) : decodePem (display pem) = .ok pem ↔ '\n' ∉ pem.label :=
  ⟨decoded_label _ _, decode_display pem⟩

/-- C61: whatever was read from a text can be written and read back. -/
theorem C61_reread (s : List Char) (pem : PEM) (h : decodePem s = .ok pem) : decodePem (display pem) = .ok pem :=
  decode_display pem (decoded_label s pem h)

/-- C61: different PEM values (with such labels) have different texts. -/
theorem C61_display_injective (a b : PEM) (ha : '\n' ∉ a.label) (hb : '\n' ∉ b.label) (h : display a = display b) :
    a = b := by
  have h1 := decode_display a ha
  rw [h, decode_display b hb] at h1
  exact (Except.ok.inj h1).symm

/-- A label with blanks and dashes, and three bytes of data. -/
example : '\n' ∉ (⟨" A----- B ".toList, [1#8, 2#8, 255#8]⟩ : PEM).label := by decide +kernel
example : display ⟨"X".toList, [1#8, 2#8, 255#8]⟩ = "-----BEGIN X-----\nAQL/\n-----END X-----".toList := by decide +kernel
/-- A label with a line feed: the text is rejected. -/
example : decodePem (display ⟨"A\nB".toList, []⟩) = .error .invalidBegin := by decide +kernel

/-! ## C62 -/

/-- C62: a text is read as `pem` exactly if, after trimming its lines, it consists of lines without marks, the BEGIN line of
the label, lines without marks that together are base64 text of the data, the END line of the same label, and lines without
marks. In all other cases the result is an error (`decodePem` has no panic). -/
theorem C62_ok_iff (s : List Char) (pem : PEM) : decodePem s = .ok pem ↔
    ∃ pre body post, trimmedLines s = pre ++ [beginLine pem.label] ++ body ++ [endLine pem.label] ++ post ∧
      Plain pre ∧ Plain body ∧ Plain post ∧ body.flatten = Spec.Base64.encode pem.data := by
  simp only [decodePem_ok_iff, beginLine_eq, endLine_eq, plain_iff, C68_decode_iff]

/-- C62: trimming removes white space at both ends and nothing else. -/
theorem C62_trim (l : List Char) : ∃ a b, l = a ++ Spec.Pem.trim l ++ b ∧ (∀ c ∈ a, c ∈ Spec.Pem.whiteSpace) ∧
    (∀ c ∈ b, c ∈ Spec.Pem.whiteSpace) ∧ (∀ c, (Spec.Pem.trim l).head? = some c → c ∉ Spec.Pem.whiteSpace) ∧
    (∀ c, (Spec.Pem.trim l).getLast? = some c → c ∉ Spec.Pem.whiteSpace) := by
  have hw : ∀ c, isWhitespace c = false → c ∉ Spec.Pem.whiteSpace := by
    intro c hc hm
    rw [← isWhitespace_iff, hc] at hm
    cases hm
  refine ⟨l.takeWhile isWhitespace, ((l.dropWhile isWhitespace).reverse.takeWhile isWhitespace).reverse, ?_, ?_, ?_, ?_, ?_⟩
  · rw [← trim_eq]
    unfold trim
    rw [List.append_assoc, ← List.reverse_append, List.takeWhile_append_dropWhile, List.reverse_reverse,
      List.takeWhile_append_dropWhile]
  · intro c hc
    exact (isWhitespace_iff c).1 (List.mem_takeWhile_imp hc)
  · intro c hc
    rw [List.mem_reverse] at hc
    exact (isWhitespace_iff c).1 (List.mem_takeWhile_imp hc)
  · intro c hc
    rw [← trim_eq] at hc
    exact hw c (trim_head l c hc)
  · intro c hc
    rw [← trim_eq] at hc
    exact hw c (trim_last l c hc)

/-- Text around, indentation, two data lines. -/
example : decodePem "hello\n  -----BEGIN A B-----\r\n\tAQ\n L/ \n-----END A B-----\n\nbye".toList =
    .ok ⟨"A B".toList, [1#8, 2#8, 255#8]⟩ := by decide +kernel
example : trimmedLines "hello\n  -----BEGIN A B-----\r\n\tAQ\n L/ \n-----END A B-----\n\nbye".toList =
    ["hello".toList] ++ [beginLine "A B".toList] ++ ["AQ".toList, "L/".toList] ++ [endLine "A B".toList] ++
      [[], "bye".toList] := by decide +kernel
/-- The errors. -/
example : decodePem "-----BEGIN A-----\n-----BEGIN A-----\n-----END A-----".toList = .error .multipleBegin ∧
    decodePem "-----END A-----\n-----BEGIN A-----".toList = .error .endBeforeBegin ∧
    decodePem "-----BEGIN A-----\n-----END A-----\n-----END A-----".toList = .error .multipleEnd ∧
    decodePem "-----BEGIN A-----\n-----END B-----".toList = .error .labelMismatch ∧
    decodePem "-----BEGIN A-----\nAQ\n-----END A-----".toList = .error .base64 ∧
    decodePem "-----BEGIN A-----\n".toList = .error .endMissing ∧ decodePem [] = .error .beginMissing := by decide +kernel

/-! ## C63 -/

/-- C63: the result depends only on the trimmed lines. -/
theorem C63_trimmed (s s' : List Char) (h : trimmedLines s = trimmedLines s') : decodePem s = decodePem s' :=
  decodePem_congr s s' h

/-- C63: white space may be added at the ends of every line (indentation, trailing blanks, carriage returns). -/
theorem C63_whitespace (ls : List (List Char × List Char × List Char))
    (h : ∀ x ∈ ls, (∀ c ∈ x.1, c ∈ Spec.Pem.whiteSpace) ∧ (∀ c ∈ x.2.2, c ∈ Spec.Pem.whiteSpace) ∧
      '\n' ∉ x.1 ∧ '\n' ∉ x.2.1 ∧ '\n' ∉ x.2.2) :
    decodePem (['\n'].intercalate (ls.map fun x => x.1 ++ x.2.1 ++ x.2.2)) =
      decodePem (['\n'].intercalate (ls.map fun x => x.2.1)) := by
  by_cases hne : ls = []
  · subst hne; rfl
  apply decodePem_congr
  unfold trimmedLines
  rw [List.splitOn_intercalate, List.splitOn_intercalate, List.map_map, List.map_map]
  · apply List.map_congr_left
    intro x hx
    obtain ⟨h1, h2, _⟩ := h x hx
    simp only [Function.comp_apply]
    rw [← trim_eq, ← trim_eq]
    exact trim_ws _ _ _ (fun c hc => (isWhitespace_iff c).2 (h1 c hc)) (fun c hc => (isWhitespace_iff c).2 (h2 c hc))
  · intro l hl
    obtain ⟨x, hx, rfl⟩ := List.mem_map.1 hl
    exact (h x hx).2.2.2.1
  · simpa using hne
  · intro l hl
    obtain ⟨x, hx, rfl⟩ := List.mem_map.1 hl
    obtain ⟨_, _, h3, h4, h5⟩ := h x hx
    simp [h3, h4, h5]
  · simpa using hne

/-- C63: line ends may be CRLF. -/
theorem C63_crlf (ls : List (List Char)) (h : ∀ l ∈ ls, '\n' ∉ l) :
    decodePem (['\n'].intercalate (ls.map (· ++ ['\r']))) = decodePem (['\n'].intercalate ls) := by
  have := C63_whitespace (ls.map fun l => ([], l, ['\r'])) (by
    intro x hx
    obtain ⟨l, hl, rfl⟩ := List.mem_map.1 hx
    have h1 : ∀ c ∈ ['\r'], c ∈ Spec.Pem.whiteSpace := by decide +kernel
    exact ⟨by simp, h1, by simp, h l hl, by simp⟩)
  rw [List.map_map, List.map_map] at this
  simpa [Function.comp_def] using this

/-- C63: text in front without marks is ignored. -/
theorem C63_text_before (p s : List Char) (h : Plain (trimmedLines p)) : decodePem (p ++ '\n' :: s) = decodePem s :=
  decodePem_before p s ((plain_iff _).1 h)

/-- C63: text behind without marks is ignored. -/
theorem C63_text_after (s q : List Char) (h : Plain (trimmedLines q)) : decodePem (s ++ '\n' :: q) = decodePem s :=
  decodePem_after s q ((plain_iff _).1 h)

/-- C63: the data may be cut into lines differently (also in a text that is rejected). -/
theorem C63_rewrap (s s' : List Char) (pre body body' post : List (List Char))
    (h : trimmedLines s = pre ++ body ++ post) (h' : trimmedLines s' = pre ++ body' ++ post)
    (hp : Plain body) (hp' : Plain body') (he : body.flatten = body'.flatten) : decodePem s = decodePem s' :=
  decodePem_rewrap s s' pre body body' post h h' ((plain_iff _).1 hp) ((plain_iff _).1 hp') he

instance (ls : List (List Char)) : Decidable (Plain ls) := by unfold Spec.Pem.Plain; infer_instance

example : Plain (trimmedLines "some text\n -- BEGIN\n-----".toList) := by decide +kernel
example : ¬ Plain (trimmedLines " -----BEGIN ".toList ++ trimmedLines "-----BEGIN x".toList) := by decide +kernel
example : trimmedLines "-----BEGIN A-----\nAQ\nL/\n-----END A-----".toList =
    [beginLine "A".toList] ++ ["AQ".toList, "L/".toList] ++ [endLine "A".toList] ∧
    trimmedLines "-----BEGIN A-----\nAQL/\n\n-----END A-----".toList =
      [beginLine "A".toList] ++ ["AQL/".toList, []] ++ [endLine "A".toList] ∧
    Plain ["AQ".toList, "L/".toList] ∧ Plain ["AQL/".toList, []] := by decide +kernel

/-! ## C64 -/

/-- C64: the text is the BEGIN line, the base64 text cut into lines of 64 characters and a last line of at most 64 characters
that is empty only if there is no data, and the END line, separated by line feeds. -/
theorem C64_layout (pem : PEM) : ∃ (full : List (List Char)) (last : List Char),
    display pem = ['\n'].intercalate ([beginLine pem.label] ++ full ++ [last] ++ [endLine pem.label]) ∧
    full.flatten ++ last = Spec.Base64.encode pem.data ∧ (∀ l ∈ full, l.length = 64) ∧ last.length ≤ 64 ∧
    (last = [] → pem.data = []) := by
  rw [beginLine_eq, endLine_eq, ← C68_encode]
  exact display_spec pem

/-- 48 bytes fill one line exactly, and no empty line follows; 49 bytes need a second line; no data gives an empty line. -/
example : display ⟨"X".toList, List.replicate 48 0#8⟩ =
    "-----BEGIN X-----\nAAAAAAAAAAAAAAAAAAAAAAAAAAAAAAAAAAAAAAAAAAAAAAAAAAAAAAAAAAAAAAAA\n-----END X-----".toList := by
  decide +kernel
example : display ⟨"X".toList, List.replicate 49 0#8⟩ =
    "-----BEGIN X-----\nAAAAAAAAAAAAAAAAAAAAAAAAAAAAAAAAAAAAAAAAAAAAAAAAAAAAAAAAAAAAAAAA\nAA==\n-----END X-----".toList := by
  decide +kernel
example : display ⟨"X".toList, []⟩ = "-----BEGIN X-----\n\n-----END X-----".toList := by decide +kernel

/-- C63 applied. -/
example : decodePem " -----BEGIN A-----\t\nAQL/ \n-----END A-----\r".toList =
    decodePem "-----BEGIN A-----\nAQL/\n-----END A-----".toList :=
  C63_trimmed _ _ (by decide +kernel)
example : decodePem (['\n'].intercalate ([(" ".toList, "-----BEGIN A-----".toList, "\t".toList), ([], "AQL/".toList, " ".toList),
      ([], "-----END A-----".toList, "\r".toList)].map fun x => x.1 ++ x.2.1 ++ x.2.2)) =
    decodePem (['\n'].intercalate ([(" ".toList, "-----BEGIN A-----".toList, "\t".toList), ([], "AQL/".toList, " ".toList),
      ([], "-----END A-----".toList, "\r".toList)].map fun x => x.2.1)) :=
  C63_whitespace _ (by decide +kernel)
example : decodePem "-----BEGIN A-----\r\nAQL/\r\n-----END A-----\r".toList =
    decodePem "-----BEGIN A-----\nAQL/\n-----END A-----".toList :=
  C63_crlf ["-----BEGIN A-----".toList, "AQL/".toList, "-----END A-----".toList] (by decide +kernel)
example : decodePem "some text\n-----BEGIN A-----\nAQL/\n-----END A-----".toList =
    decodePem "-----BEGIN A-----\nAQL/\n-----END A-----".toList :=
  C63_text_before "some text".toList _ (by decide +kernel)

end Verif.Props
