import Verif.Proof.Pem
import Verif.Spec.PemErrors

/-! # Rejected PEM texts -/

namespace Verif.Model.Pem
open Verif
open _root_.Verif.Spec.Pem (trimmedLines marks BadMarks)

theorem marks_plain (l : List Char) (ls : List (List Char)) (h : PlainLine l) : marks (l :: ls) = marks ls := by
  unfold marks
  rw [List.filter_cons_of_neg]
  rw [beginMark_eq, endMark_eq]
  simp [h.1, h.2]

theorem marks_begin (m : List Char) (ls : List (List Char)) :
    marks ((beginMark ++ m) :: ls) = (beginMark ++ m) :: marks ls := by
  unfold marks
  rw [List.filter_cons_of_pos]
  rw [beginMark_eq]
  simp

theorem marks_end (m : List Char) (ls : List (List Char)) :
    marks ((endMark ++ m) :: ls) = (endMark ++ m) :: marks ls := by
  unfold marks
  rw [List.filter_cons_of_pos]
  rw [endMark_eq]
  simp

theorem strip_begin_end (m : List Char) : stripPrefix beginMark (endMark ++ m) = none := by
  rw [stripPrefix_none]
  rintro ⟨t, ht⟩
  exact not_both _ _ ht

/-- The verdict on the marks behind a complete block. -/
def verdict3 : List (List Char) → Option Error
  | [] => none
  | l :: _ => match stripPrefix beginMark l with
    | some _ => some .multipleBegin
    | none => some .multipleEnd

/-- The verdict on the marks behind a BEGIN line; `ok` is the verdict on the label if all is well. -/
def verdict2 (b : List Char) : List (List Char) → Option Error
  | [] => some .endMissing
  | l :: r => match stripPrefix beginMark l with
    | some _ => some .multipleBegin
    | none => match stripPrefix endMark l with
      | none => none
      | some m => match stripSuffix dashes m with
        | none => some .invalidEnd
        | some e => match verdict3 r with
          | some x => some x
          | none => if e ≠ b then some .labelMismatch else none

/-- The verdict on the marks of a text. -/
def verdict1 : List (List Char) → Option Error
  | [] => some .beginMissing
  | l :: r => match stripPrefix beginMark l with
    | none => some .endBeforeBegin
    | some m => match stripSuffix dashes m with
      | none => some .invalidBegin
      | some b => verdict2 b r

/-- The result, given the outcome of the loop. -/
def conclude (r : Except Error State) : Except Error PEM :=
  match r with
  | .error e => .error e
  | .ok st => finish st

theorem run3 (b e : List Char) (d : List (List Char)) (ls : List (List Char)) (ht : ∀ l ∈ ls, trim l = l) :
    ls.foldlM step ⟨some b, d, some e⟩ = match verdict3 (marks ls) with
      | some x => .error x
      | none => .ok ⟨some b, d, some e⟩ := by
  induction ls with
  | nil => rfl
  | cons l ls ih =>
    have htl := ht l (by simp)
    have ih := ih (fun x hx => ht x (by simp [hx]))
    rw [List.foldlM_cons]
    rcases line_cases l with hp | ⟨m, rfl⟩ | ⟨m, rfl⟩
    · rw [step_plain _ l htl hp, if_neg (by simp), marks_plain l ls hp]
      exact ih
    · rw [step_begin _ m htl, if_pos (by simp), marks_begin]
      simp only [verdict3, stripPrefix_some.2 rfl]
      rfl
    · rw [step_end _ m htl, if_neg (by simp), if_pos (by simp), marks_end]
      simp only [verdict3, strip_begin_end]
      rfl

theorem run2 (b : List Char) (d : List (List Char)) (ls : List (List Char)) (ht : ∀ l ∈ ls, trim l = l) :
    match verdict2 b (marks ls) with
      | some x => conclude (ls.foldlM step ⟨some b, d, none⟩) = .error x
      | none => ∃ d', ls.foldlM step ⟨some b, d, none⟩ = .ok ⟨some b, d', some b⟩ := by
  induction ls generalizing d with
  | nil => rfl
  | cons l ls ih =>
    have htl := ht l (by simp)
    have hts : ∀ x ∈ ls, trim x = x := fun x hx => ht x (by simp [hx])
    rw [List.foldlM_cons]
    rcases line_cases l with hp | ⟨m, rfl⟩ | ⟨m, rfl⟩
    · rw [step_plain _ l htl hp, if_pos (by simp), marks_plain l ls hp]
      exact ih _ hts
    · rw [step_begin _ m htl, if_pos (by simp), marks_begin]
      simp only [verdict2, stripPrefix_some.2 rfl]
      rfl
    · rw [step_end _ m htl, if_neg (by simp), if_neg (by simp), marks_end]
      simp only [verdict2, strip_begin_end, stripPrefix_some.2 rfl]
      rcases stripSuffix dashes m with _ | e
      · rfl
      · simp only [bind, Except.bind, run3 b e d ls hts]
        rcases verdict3 (marks ls) with _ | x
        · simp only
          by_cases he : e ≠ b
          · rw [if_pos he]
            simp only [conclude, finish]
            rw [if_pos he]
          · rw [if_neg he]
            rw [not_not.1 he]
            exact ⟨d, rfl⟩
        · rfl

theorem run1 (ls : List (List Char)) (ht : ∀ l ∈ ls, trim l = l) :
    match verdict1 (marks ls) with
      | some x => conclude (ls.foldlM step ⟨none, [], none⟩) = .error x
      | none => ∃ b d', ls.foldlM step ⟨none, [], none⟩ = .ok ⟨some b, d', some b⟩ := by
  induction ls with
  | nil => rfl
  | cons l ls ih =>
    have htl := ht l (by simp)
    have hts : ∀ x ∈ ls, trim x = x := fun x hx => ht x (by simp [hx])
    rw [List.foldlM_cons]
    rcases line_cases l with hp | ⟨m, rfl⟩ | ⟨m, rfl⟩
    · rw [step_plain _ l htl hp, if_neg (by simp), marks_plain l ls hp]
      exact ih hts
    · rw [step_begin _ m htl, if_neg (by simp), marks_begin]
      simp only [verdict1, stripPrefix_some.2 rfl]
      rcases stripSuffix dashes m with _ | b
      · rfl
      · simp only [bind, Except.bind]
        have := run2 b [] ls hts
        rcases hv : verdict2 b (marks ls) with _ | x
        · rw [hv] at this
          exact ⟨b, this⟩
        · rw [hv] at this
          exact this
    · rw [step_end _ m htl, if_pos (by simp), marks_end]
      simp only [verdict1, strip_begin_end]
      rfl

/-- Every line of `marks` is a mark. -/
theorem marks_cases (ls : List (List Char)) : ∀ l ∈ marks ls, (∃ m, l = beginMark ++ m) ∨ ∃ m, l = endMark ++ m := by
  intro l hl
  unfold marks at hl
  obtain ⟨_, h⟩ := List.mem_filter.1 hl
  rw [beginMark_eq, endMark_eq, Bool.or_eq_true, List.isPrefixOf_iff_prefix, List.isPrefixOf_iff_prefix] at h
  rcases h with ⟨t, h⟩ | ⟨t, h⟩
  · exact Or.inl ⟨t, h.symm⟩
  · exact Or.inr ⟨t, h.symm⟩

theorem stripSuffix_none {p l : List Char} : stripSuffix p l = none ↔ ¬ p <:+ l := by
  unfold stripSuffix
  by_cases hp : p.isSuffixOf l = true
  · rw [if_pos hp]
    simp [List.isSuffixOf_iff_suffix.1 hp]
  · rw [if_neg hp]
    simp only [true_iff]
    exact fun h => hp (List.isSuffixOf_iff_suffix.2 h)

theorem beginLine_def (label : List Char) : Spec.Pem.beginLine label = beginMark ++ (label ++ dashes) := by
  unfold Spec.Pem.beginLine
  rw [beginMark_eq, dashes_eq, List.append_assoc]

theorem endLine_def (label : List Char) : Spec.Pem.endLine label = endMark ++ (label ++ dashes) := by
  unfold Spec.Pem.endLine
  rw [endMark_eq, dashes_eq, List.append_assoc]

theorem verdict_of_bad (ms : List (List Char)) (e : Error) (h : BadMarks ms e) : verdict1 ms = some e := by
  have hs : ∀ a : List Char, stripSuffix dashes (a ++ dashes) = some a := fun a => stripSuffix_some.2 rfl
  have hb : ∀ a : List Char, stripPrefix beginMark (beginMark ++ a) = some a := fun a => stripPrefix_some.2 rfl
  have he : ∀ a : List Char, stripPrefix endMark (endMark ++ a) = some a := fun a => stripPrefix_some.2 rfl
  cases h with
  | beginMissing => rfl
  | endBeforeBegin x r => simp only [verdict1, endMark_eq, strip_begin_end]
  | invalidBegin x r hx =>
    rw [dashes_eq, ← stripSuffix_none] at hx
    simp only [verdict1, beginMark_eq, hb, hx]
  | endMissing a => simp only [beginLine_def, verdict1, hb, hs, verdict2]
  | multipleBegin a x r => simp only [beginLine_def, verdict1, hb, hs, verdict2, beginMark_eq]
  | invalidEnd a x r hx =>
    rw [dashes_eq, ← stripSuffix_none] at hx
    simp only [beginLine_def, verdict1, hb, hs, verdict2, endMark_eq, strip_begin_end, he, hx]
  | multipleBeginBehind a b x r =>
    simp only [beginLine_def, endLine_def, verdict1, hb, hs, verdict2, beginMark_eq, strip_begin_end, he, verdict3]
  | multipleEnd a b x r =>
    simp only [beginLine_def, endLine_def, verdict1, hb, hs, verdict2, endMark_eq, strip_begin_end, he, verdict3]
  | labelMismatch a b hab =>
    simp only [beginLine_def, endLine_def, verdict1, hb, hs, verdict2, strip_begin_end, he, verdict3]
    rw [if_pos (Ne.symm hab)]

theorem bad_of_verdict (ms : List (List Char)) (hm : ∀ l ∈ ms, (∃ m, l = beginMark ++ m) ∨ ∃ m, l = endMark ++ m)
    (e : Error) (h : verdict1 ms = some e) : BadMarks ms e := by
  have hb : ∀ a : List Char, stripPrefix beginMark (beginMark ++ a) = some a := fun a => stripPrefix_some.2 rfl
  have he : ∀ a : List Char, stripPrefix endMark (endMark ++ a) = some a := fun a => stripPrefix_some.2 rfl
  cases ms with
  | nil => cases h; exact .beginMissing
  | cons l r =>
    rcases hm l (by simp) with ⟨m, rfl⟩ | ⟨m, rfl⟩
    swap
    · simp only [verdict1, strip_begin_end] at h
      cases h
      rw [← endMark_eq]
      exact .endBeforeBegin _ _
    simp only [verdict1, hb] at h
    rcases hs : stripSuffix dashes m with _ | a
    · rw [hs] at h
      cases h
      rw [stripSuffix_none, ← dashes_eq] at hs
      rw [← beginMark_eq]
      exact .invalidBegin _ _ hs
    rw [hs] at h
    simp only at h
    rw [stripSuffix_some] at hs
    subst hs
    rw [← beginLine_def]
    cases r with
    | nil => cases h; exact .endMissing a
    | cons l r =>
      rcases hm l (by simp) with ⟨m, rfl⟩ | ⟨m, rfl⟩
      · simp only [verdict2, hb] at h
        cases h
        rw [← beginMark_eq]
        exact .multipleBegin _ _ _
      simp only [verdict2, strip_begin_end, he] at h
      rcases hs : stripSuffix dashes m with _ | b
      · rw [hs] at h
        cases h
        rw [stripSuffix_none, ← dashes_eq] at hs
        rw [← endMark_eq]
        exact .invalidEnd _ _ _ hs
      rw [hs] at h
      simp only at h
      rw [stripSuffix_some] at hs
      subst hs
      rw [← endLine_def]
      cases r with
      | nil =>
        simp only [verdict3] at h
        by_cases hab : b ≠ a
        · rw [if_pos hab] at h
          cases h
          exact .labelMismatch _ _ (Ne.symm hab)
        · rw [if_neg hab] at h; cases h
      | cons l r =>
        rcases hm l (by simp) with ⟨m, rfl⟩ | ⟨m, rfl⟩
        · simp only [verdict3, hb] at h
          cases h
          rw [← beginMark_eq]
          exact .multipleBeginBehind _ _ _ _
        · simp only [verdict3, strip_begin_end] at h
          cases h
          rw [← endMark_eq]
          exact .multipleEnd _ _ _ _

theorem decodePem_conclude (s : List Char) : decodePem s = conclude ((trimmedLines s).foldlM step ⟨none, [], none⟩) :=
  decodePem_eq s

/-- A well-formed text: the loop and the result. -/
theorem decodePem_shape (s label : List Char) (pre body post : List (List Char))
    (h1 : trimmedLines s = pre ++ [beginMark ++ label ++ dashes] ++ body ++ [endMark ++ label ++ dashes] ++ post)
    (h2 : ∀ l ∈ pre, PlainLine l) (h3 : ∀ l ∈ body, PlainLine l) (h4 : ∀ l ∈ post, PlainLine l) :
    decodePem s = match Base64.decode body.flatten with
      | none => .error .base64
      | some data => .ok ⟨label, data⟩ := by
  have htrim := trimmed_trim s
  have hb : trim (beginMark ++ label ++ dashes) = beginMark ++ label ++ dashes := htrim _ (by rw [h1]; simp)
  have he : trim (endMark ++ label ++ dashes) = endMark ++ label ++ dashes := htrim _ (by rw [h1]; simp)
  have ep := fold_plain_out ⟨none, [], none⟩ (by simp) pre (fun l hl => htrim l (by rw [h1]; simp [hl])) h2
  have eb := fold_plain_in label [] body (fun l hl => htrim l (by rw [h1]; simp [hl])) h3
  have eo := fold_plain_out ⟨some label, body, some label⟩ (by simp) post
    (fun l hl => htrim l (by rw [h1]; simp [hl])) h4
  rw [List.append_assoc] at hb he
  have sb := step_begin ⟨none, [], none⟩ (label ++ dashes) hb
  rw [if_neg (by simp), stripSuffix_some.2 rfl] at sb
  have se := step_end ⟨some label, body, none⟩ (label ++ dashes) he
  rw [if_neg (by simp), if_neg (by simp), stripSuffix_some.2 rfl] at se
  have hfold : (trimmedLines s).foldlM step ⟨none, [], none⟩ = .ok ⟨some label, body, some label⟩ := by
    rw [h1]
    simp only [List.foldlM_append, List.append_assoc, List.foldlM_cons, List.foldlM_nil, ep, bind, Except.bind, sb, pure,
      Except.pure, eb, List.nil_append, se, eo]
  rw [decodePem_eq, hfold]
  simp only [finish]
  rw [if_neg (by simp)]
  cases Base64.decode body.flatten <;> rfl

theorem decodePem_error_iff (s : List Char) (e : Error) : decodePem s = .error e ↔
    BadMarks (marks (trimmedLines s)) e ∨ e = .base64 ∧ ∃ label pre body post,
      trimmedLines s = pre ++ [beginMark ++ label ++ dashes] ++ body ++ [endMark ++ label ++ dashes] ++ post ∧
      (∀ l ∈ pre, PlainLine l) ∧ (∀ l ∈ body, PlainLine l) ∧ (∀ l ∈ post, PlainLine l) ∧
      Base64.decode body.flatten = none := by
  have htrim := trimmed_trim s
  have hrun := run1 (trimmedLines s) htrim
  constructor
  · intro h
    rcases hv : verdict1 (marks (trimmedLines s)) with _ | x
    · rw [hv] at hrun
      right
      obtain ⟨b, d, hf⟩ := hrun
      rcases fold_before _ htrim _ hf with ⟨h0, _⟩ | ⟨pre, b', rest, h1, h2, h3⟩
      · cases h0
      · have htr : ∀ l ∈ rest, trim l = l := fun l hl => htrim l (by rw [h1]; simp [hl])
        rcases fold_inside b' [] rest htr _ h3 with ⟨h0, _⟩ | ⟨body, e', post, h4, h5, h6, h7⟩
        · cases h0
        · have h8 : b = b' := by injection h7 with h7; exact Option.some.inj h7
          have h9 : b = e' := by injection h7 with _ _ h7; exact Option.some.inj h7
          subst h8; subst h9
          have hsh : trimmedLines s = pre ++ [beginMark ++ b ++ dashes] ++ body ++ [endMark ++ b ++ dashes] ++ post := by
            rw [h1, h4]; simp
          have := decodePem_shape s b pre body post hsh h2 h5 h6
          rw [h] at this
          rcases hd : Base64.decode body.flatten with _ | data
          · rw [hd] at this
            exact ⟨Except.error.inj this, b, pre, body, post, hsh, h2, h5, h6, hd⟩
          · rw [hd] at this
            cases this
    · rw [hv] at hrun
      left
      rw [decodePem_conclude, hrun] at h
      rw [← Except.error.inj h]
      exact bad_of_verdict _ (marks_cases _) x hv
  · rintro (h | ⟨rfl, label, pre, body, post, h1, h2, h3, h4, h5⟩)
    · rw [verdict_of_bad _ _ h] at hrun
      rw [decodePem_conclude]
      exact hrun
    · rw [decodePem_shape s label pre body post h1 h2 h3 h4, h5]

end Verif.Model.Pem
