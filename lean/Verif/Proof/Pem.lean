import Verif.Proof.Base64
import Mathlib.Data.List.TakeWhile

/-! # The PEM reader and writer -/

namespace Verif.Model.Pem
open Verif
open Verif.Spec.Pem (Plain trimmedLines)

/-! ## Trimming -/

theorem beginMark_eq : Spec.Pem.beginMark = beginMark := by decide +kernel
theorem endMark_eq : Spec.Pem.endMark = endMark := by decide +kernel
theorem dashes_eq : Spec.Pem.dashes = dashes := by decide +kernel

theorem char_eq_of_toNat {c : Char} {n : Nat} (h : c.toNat = n) : c = Char.ofNat n := by
  rw [← h, Char.ofNat_toNat]

theorem isWhitespace_iff (c : Char) : isWhitespace c = true ↔ c ∈ Spec.Pem.whiteSpace := by
  constructor
  · intro h
    unfold isWhitespace at h
    simp only [Bool.or_eq_true, Bool.and_eq_true, decide_eq_true_eq] at h
    have key : ∀ n ∈ [9, 10, 11, 12, 13, 0x20, 0x85, 0xA0, 0x1680, 0x2000, 0x2001, 0x2002, 0x2003, 0x2004, 0x2005, 0x2006,
        0x2007, 0x2008, 0x2009, 0x200A, 0x2028, 0x2029, 0x202F, 0x205F, 0x3000], c.toNat = n → c ∈ Spec.Pem.whiteSpace := by
      intro n hn e
      rw [char_eq_of_toNat e]
      exact List.mem_map_of_mem hn
    have : c.toNat ∈ [9, 10, 11, 12, 13, 0x20, 0x85, 0xA0, 0x1680, 0x2000, 0x2001, 0x2002, 0x2003, 0x2004, 0x2005, 0x2006,
        0x2007, 0x2008, 0x2009, 0x200A, 0x2028, 0x2029, 0x202F, 0x205F, 0x3000] := by
      simp only [List.mem_cons, List.not_mem_nil, or_false]
      omega
    exact key _ this rfl
  · have key : ∀ d ∈ Spec.Pem.whiteSpace, isWhitespace d = true := by decide +kernel
    exact key c

theorem isWhitespace_eq : isWhitespace = fun c => decide (c ∈ Spec.Pem.whiteSpace) := by
  funext c
  rw [Bool.eq_iff_iff, isWhitespace_iff]
  simp

theorem trim_eq (l : List Char) : trim l = Spec.Pem.trim l := by
  unfold trim Spec.Pem.trim List.rdropWhile
  rw [isWhitespace_eq]

/-- Trimming a line whose ends are not white space changes nothing. -/
theorem trim_self (l : List Char) (h1 : ∀ c, l.head? = some c → isWhitespace c = false)
    (h2 : ∀ c, l.getLast? = some c → isWhitespace c = false) : trim l = l := by
  have key : ∀ m : List Char, (∀ c, m.head? = some c → isWhitespace c = false) → m.dropWhile isWhitespace = m := by
    intro m hm
    cases m with
    | nil => rfl
    | cons c m => rw [List.dropWhile_cons_of_neg (by rw [hm c rfl]; simp)]
  unfold trim
  rw [key l h1, key l.reverse (by rw [List.head?_reverse]; exact h2), List.reverse_reverse]

theorem dropWhile_append_ws (ws l : List Char) (h : ∀ c ∈ ws, isWhitespace c = true) :
    (ws ++ l).dropWhile isWhitespace = l.dropWhile isWhitespace := by
  induction ws with
  | nil => rfl
  | cons c ws ih =>
    rw [List.cons_append, List.dropWhile_cons_of_pos (h c (by simp))]
    exact ih fun d hd => h d (by simp [hd])

theorem dropWhile_all (l : List Char) (h : ∀ c ∈ l, isWhitespace c = true) : l.dropWhile isWhitespace = [] := by
  have := dropWhile_append_ws l [] h
  rwa [List.append_nil] at this

/-- White space at the ends of a line does not matter. -/
theorem trim_ws (a l b : List Char) (ha : ∀ c ∈ a, isWhitespace c = true) (hb : ∀ c ∈ b, isWhitespace c = true) :
    trim (a ++ l ++ b) = trim l := by
  unfold trim
  rw [List.append_assoc, dropWhile_append_ws a _ ha]
  congr 1
  by_cases h : ∀ c ∈ l, isWhitespace c = true
  · rw [dropWhile_append_ws l b h, dropWhile_all b hb, dropWhile_all l h]
  · have : (l ++ b).dropWhile isWhitespace = l.dropWhile isWhitespace ++ b := by
      rw [List.dropWhile_append, if_neg]
      simp only [List.isEmpty_iff, List.dropWhile_eq_nil_iff]
      exact h
    rw [this, List.reverse_append, dropWhile_append_ws b.reverse _ (by simpa using hb)]

theorem trim_head (l : List Char) : ∀ c, (trim l).head? = some c → isWhitespace c = false := by
  intro c hc
  unfold trim at hc
  rw [List.head?_reverse] at hc
  generalize hm : (l.dropWhile isWhitespace) = m at hc
  have hm1 : ∀ d, m.head? = some d → isWhitespace d = false := by
    intro d hd
    subst hm
    have := List.head?_dropWhile_not isWhitespace l
    rw [hd] at this
    simpa using this
  have hsuf : (m.reverse.dropWhile isWhitespace) <:+ m.reverse := List.dropWhile_suffix _
  obtain ⟨t, ht⟩ := hsuf
  have : m.reverse.getLast? = some c := by
    rw [← ht, List.getLast?_append, hc]
    rfl
  rw [List.getLast?_reverse] at this
  exact hm1 c this

theorem trim_last (l : List Char) : ∀ c, (trim l).getLast? = some c → isWhitespace c = false := by
  intro c hc
  unfold trim at hc
  rw [List.getLast?_reverse] at hc
  have := List.head?_dropWhile_not isWhitespace (l.dropWhile isWhitespace).reverse
  rw [hc] at this
  simpa using this

theorem trim_trim (l : List Char) : trim (trim l) = trim l := trim_self _ (trim_head l) (trim_last l)

theorem trim_nil : trim [] = [] := rfl

/-! ## Lines -/

theorem stripCr_eq (l : List Char) : ∃ b, l = stripCr l ++ b ∧ ∀ c ∈ b, isWhitespace c = true := by
  unfold stripCr stripSuffix
  by_cases h : ['\r'].isSuffixOf l = true
  · rw [if_pos h]
    obtain ⟨t, ht⟩ := List.isSuffixOf_iff_suffix.1 h
    refine ⟨['\r'], ?_, ?_⟩
    · simp only [Option.getD_some]
      rw [← ht]
      simp
    · intro c hc
      rw [List.mem_singleton] at hc
      subst hc
      decide
  · rw [if_neg h]
    exact ⟨[], by simp, by simp⟩

theorem trim_stripCr (l : List Char) : trim (stripCr l) = trim l := by
  obtain ⟨b, h1, h2⟩ := stripCr_eq l
  have := trim_ws [] (stripCr l) b (by simp) h2
  rw [List.nil_append, ← h1] at this
  exact this.symm

theorem splitOn_cons_nl (cs : List Char) : ('\n' :: cs).splitOn '\n' = [] :: cs.splitOn '\n' := by
  rw [List.splitOn_cons_eq_if_modifyHead]
  simp

theorem splitOn_cons_other (c : Char) (cs : List Char) (h : c ≠ '\n') :
    (c :: cs).splitOn '\n' = (cs.splitOn '\n').modifyHead (c :: ·) := by
  rw [List.splitOn_cons_eq_if_modifyHead, if_neg (by simpa using h)]

theorem linesFrom_spec (s line : List Char) : ∃ tail, (tail = [] ∨ tail = [[]]) ∧
    ((s.splitOn '\n').modifyHead (line ++ ·)).map trim = (linesFrom s line).map trim ++ tail := by
  induction s generalizing line with
  | nil =>
    unfold linesFrom
    rw [List.splitOn_nil]
    by_cases h : line = []
    · rw [if_pos h, h]
      exact ⟨[[]], Or.inr rfl, rfl⟩
    · rw [if_neg h]
      exact ⟨[], Or.inl rfl, by simp⟩
  | cons c cs ih =>
    unfold linesFrom
    by_cases h : c = '\n'
    · subst h
      rw [if_pos rfl, splitOn_cons_nl]
      obtain ⟨tail, h1, h2⟩ := ih []
      refine ⟨tail, h1, ?_⟩
      have h3 : (cs.splitOn '\n').modifyHead (fun x => [] ++ x) = cs.splitOn '\n' := by
        cases cs.splitOn '\n' <;> simp
      rw [h3] at h2
      simp only [List.modifyHead_cons, List.map_cons, List.append_nil, List.cons_append, h2, trim_stripCr]
    · rw [if_neg h, splitOn_cons_other c cs h]
      obtain ⟨tail, h1, h2⟩ := ih (line ++ [c])
      refine ⟨tail, h1, ?_⟩
      rw [← h2]
      cases cs.splitOn '\n' <;> simp

theorem lines_spec (s : List Char) : ∃ tail, (tail = [] ∨ tail = [[]]) ∧
    trimmedLines s = (lines s).map trim ++ tail := by
  obtain ⟨tail, h1, h2⟩ := linesFrom_spec s []
  refine ⟨tail, h1, ?_⟩
  unfold trimmedLines lines
  rw [← h2]
  have h3 : (s.splitOn '\n').modifyHead (fun x => [] ++ x) = s.splitOn '\n' := by
    cases s.splitOn '\n' <;> simp
  rw [h3]
  apply List.map_congr_left
  intro l _
  exact (trim_eq l).symm

theorem step_trim (st : State) (l : List Char) : step st (trim l) = step st l := by
  unfold step
  rw [trim_trim]

theorem foldlM_trim (ls : List (List Char)) (st : State) : (ls.map trim).foldlM step st = ls.foldlM step st := by
  induction ls generalizing st with
  | nil => rfl
  | cons l ls ih =>
    simp only [List.map_cons, List.foldlM_cons, step_trim, ih]

/-! ## The loop, on trimmed lines -/

/-- A line that starts like neither a BEGIN nor an END line. -/
def PlainLine (l : List Char) : Prop := ¬ beginMark <+: l ∧ ¬ endMark <+: l

theorem plain_iff (ls : List (List Char)) : Plain ls ↔ ∀ l ∈ ls, PlainLine l := by
  unfold Plain PlainLine
  rw [beginMark_eq, endMark_eq]

theorem stripPrefix_some {p l m : List Char} : stripPrefix p l = some m ↔ l = p ++ m := by
  unfold stripPrefix
  constructor
  · intro h
    by_cases hp : p.isPrefixOf l = true
    · rw [if_pos hp] at h
      obtain ⟨t, ht⟩ := List.isPrefixOf_iff_prefix.1 hp
      rw [← ht] at h
      simp only [List.drop_left, Option.some.injEq] at h
      rw [← ht, h]
    · rw [if_neg hp] at h; cases h
  · intro h
    rw [if_pos (List.isPrefixOf_iff_prefix.2 ⟨m, h.symm⟩), h]
    simp

theorem stripPrefix_none {p l : List Char} : stripPrefix p l = none ↔ ¬ p <+: l := by
  unfold stripPrefix
  by_cases hp : p.isPrefixOf l = true
  · rw [if_pos hp]
    simp [List.isPrefixOf_iff_prefix.1 hp]
  · rw [if_neg hp]
    simp only [true_iff]
    intro h
    exact hp (List.isPrefixOf_iff_prefix.2 h)

theorem stripSuffix_some {p l m : List Char} : stripSuffix p l = some m ↔ l = m ++ p := by
  unfold stripSuffix
  constructor
  · intro h
    by_cases hp : p.isSuffixOf l = true
    · rw [if_pos hp] at h
      obtain ⟨t, ht⟩ := List.isSuffixOf_iff_suffix.1 hp
      rw [← ht] at h
      simp at h
      rw [← ht, h]
    · rw [if_neg hp] at h; cases h
  · intro h
    rw [if_pos (List.isSuffixOf_iff_suffix.2 ⟨m, h.symm⟩), h]
    simp

theorem not_both (a b : List Char) : beginMark ++ a ≠ endMark ++ b := by
  unfold beginMark endMark
  simp

theorem step_plain (st : State) (l : List Char) (ht : trim l = l) (h : PlainLine l) :
    step st l = if st.beginLabel.isSome ∧ st.endLabel.isNone then .ok { st with dataLines := st.dataLines ++ [l] }
      else .ok st := by
  unfold step
  simp only [ht]
  rw [stripPrefix_none.2 h.1]
  simp only
  rw [stripPrefix_none.2 h.2]

theorem step_begin (st : State) (m : List Char) (ht : trim (beginMark ++ m) = beginMark ++ m) :
    step st (beginMark ++ m) = if st.beginLabel.isSome then .error .multipleBegin
      else match stripSuffix dashes m with
      | some l => .ok { st with beginLabel := some l }
      | none => .error .invalidBegin := by
  unfold step
  simp only [ht]
  rw [stripPrefix_some.2 rfl]
  rfl

theorem step_end (st : State) (m : List Char) (ht : trim (endMark ++ m) = endMark ++ m) :
    step st (endMark ++ m) = if st.beginLabel.isNone then .error .endBeforeBegin
      else if st.endLabel.isSome then .error .multipleEnd
      else match stripSuffix dashes m with
      | some l => .ok { st with endLabel := some l }
      | none => .error .invalidEnd := by
  unfold step
  simp only [ht]
  have : stripPrefix beginMark (endMark ++ m) = none := by
    rw [stripPrefix_none]
    rintro ⟨t, h⟩
    exact not_both _ _ h
  rw [this]
  simp only
  rw [stripPrefix_some.2 rfl]
  rfl

theorem line_cases (l : List Char) : PlainLine l ∨ (∃ m, l = beginMark ++ m) ∨ ∃ m, l = endMark ++ m := by
  by_cases h1 : beginMark <+: l
  · obtain ⟨m, h⟩ := h1; exact Or.inr (Or.inl ⟨m, h.symm⟩)
  · by_cases h2 : endMark <+: l
    · obtain ⟨m, h⟩ := h2; exact Or.inr (Or.inr ⟨m, h.symm⟩)
    · exact Or.inl ⟨h1, h2⟩

/-- Plain lines outside the data change nothing. -/
theorem fold_plain_out (st : State) (hst : ¬ (st.beginLabel.isSome ∧ st.endLabel.isNone)) (ls : List (List Char))
    (ht : ∀ l ∈ ls, trim l = l) (hp : ∀ l ∈ ls, PlainLine l) : ls.foldlM step st = .ok st := by
  induction ls with
  | nil => rfl
  | cons l ls ih =>
    rw [List.foldlM_cons, step_plain st l (ht l (by simp)) (hp l (by simp)), if_neg hst]
    exact ih (fun x hx => ht x (by simp [hx])) (fun x hx => hp x (by simp [hx]))

/-- Plain lines inside the data are collected. -/
theorem fold_plain_in (b : List Char) (d : List (List Char)) (ls : List (List Char))
    (ht : ∀ l ∈ ls, trim l = l) (hp : ∀ l ∈ ls, PlainLine l) :
    ls.foldlM step ⟨some b, d, none⟩ = .ok ⟨some b, d ++ ls, none⟩ := by
  induction ls generalizing d with
  | nil => simp; rfl
  | cons l ls ih =>
    rw [List.foldlM_cons, step_plain _ l (ht l (by simp)) (hp l (by simp)), if_pos (by simp)]
    have := ih (d ++ [l]) (fun x hx => ht x (by simp [hx])) (fun x hx => hp x (by simp [hx]))
    simp only [List.append_assoc, List.cons_append, List.nil_append] at this
    exact this

theorem fold_after (b e : List Char) (d : List (List Char)) (ls : List (List Char)) (ht : ∀ l ∈ ls, trim l = l)
    (st : State) (h : ls.foldlM step ⟨some b, d, some e⟩ = .ok st) :
    (∀ l ∈ ls, PlainLine l) ∧ st = ⟨some b, d, some e⟩ := by
  induction ls with
  | nil => cases h; exact ⟨by simp, rfl⟩
  | cons l ls ih =>
    have htl := ht l (by simp)
    rw [List.foldlM_cons] at h
    rcases line_cases l with hp | ⟨m, rfl⟩ | ⟨m, rfl⟩
    · rw [step_plain _ l htl hp, if_neg (by simp)] at h
      obtain ⟨h1, h2⟩ := ih (fun x hx => ht x (by simp [hx])) h
      refine ⟨?_, h2⟩
      intro x hx
      rcases List.mem_cons.1 hx with rfl | hx
      · exact hp
      · exact h1 x hx
    · rw [step_begin _ m htl, if_pos (by simp)] at h
      cases h
    · rw [step_end _ m htl, if_neg (by simp), if_pos (by simp)] at h
      cases h

theorem fold_inside (b : List Char) (d : List (List Char)) (ls : List (List Char)) (ht : ∀ l ∈ ls, trim l = l)
    (st : State) (h : ls.foldlM step ⟨some b, d, none⟩ = .ok st) :
    (st = ⟨some b, d ++ ls, none⟩ ∧ ∀ l ∈ ls, PlainLine l) ∨ ∃ body e post, ls = body ++ [endMark ++ e ++ dashes] ++ post ∧
      (∀ l ∈ body, PlainLine l) ∧ (∀ l ∈ post, PlainLine l) ∧ st = ⟨some b, d ++ body, some e⟩ := by
  induction ls generalizing d with
  | nil => cases h; exact Or.inl ⟨by simp, by simp⟩
  | cons l ls ih =>
    have htl := ht l (by simp)
    have htr : ∀ x ∈ ls, trim x = x := fun x hx => ht x (by simp [hx])
    rw [List.foldlM_cons] at h
    rcases line_cases l with hp | ⟨m, rfl⟩ | ⟨m, rfl⟩
    · rw [step_plain _ l htl hp, if_pos (by simp)] at h
      rcases ih (d ++ [l]) htr h with ⟨h1, h2⟩ | ⟨body, e, post, h1, h2, h3, h4⟩
      · left
        refine ⟨by rw [h1]; simp, ?_⟩
        intro x hx
        rcases List.mem_cons.1 hx with rfl | hx
        · exact hp
        · exact h2 x hx
      · right
        refine ⟨l :: body, e, post, by rw [h1]; simp, ?_, h3, by rw [h4]; simp⟩
        intro x hx
        rcases List.mem_cons.1 hx with rfl | hx
        · exact hp
        · exact h2 x hx
    · rw [step_begin _ m htl, if_pos (by simp)] at h
      cases h
    · rw [step_end _ m htl, if_neg (by simp), if_neg (by simp)] at h
      right
      rcases hs : stripSuffix dashes m with _ | e
      · rw [hs] at h; cases h
      · rw [hs] at h
        rw [stripSuffix_some] at hs
        obtain ⟨h1, h2⟩ := fold_after b e d ls htr st h
        refine ⟨[], e, ls, ?_, by simp, h1, by rw [h2]; simp⟩
        rw [hs]
        simp

theorem fold_before (ls : List (List Char)) (ht : ∀ l ∈ ls, trim l = l)
    (st : State) (h : ls.foldlM step ⟨none, [], none⟩ = .ok st) :
    (st = ⟨none, [], none⟩ ∧ ∀ l ∈ ls, PlainLine l) ∨ ∃ pre b rest, ls = pre ++ [beginMark ++ b ++ dashes] ++ rest ∧
      (∀ l ∈ pre, PlainLine l) ∧ rest.foldlM step ⟨some b, [], none⟩ = .ok st := by
  induction ls with
  | nil => cases h; exact Or.inl ⟨rfl, by simp⟩
  | cons l ls ih =>
    have htl := ht l (by simp)
    have htr : ∀ x ∈ ls, trim x = x := fun x hx => ht x (by simp [hx])
    rw [List.foldlM_cons] at h
    rcases line_cases l with hp | ⟨m, rfl⟩ | ⟨m, rfl⟩
    · rw [step_plain _ l htl hp, if_neg (by simp)] at h
      rcases ih htr h with ⟨h1, h2⟩ | ⟨pre, b, rest, h1, h2, h3⟩
      · left
        refine ⟨h1, ?_⟩
        intro x hx
        rcases List.mem_cons.1 hx with rfl | hx
        · exact hp
        · exact h2 x hx
      · right
        refine ⟨l :: pre, b, rest, by rw [h1]; simp, ?_, h3⟩
        intro x hx
        rcases List.mem_cons.1 hx with rfl | hx
        · exact hp
        · exact h2 x hx
    · rw [step_begin _ m htl, if_neg (by simp)] at h
      right
      rcases hs : stripSuffix dashes m with _ | e
      · rw [hs] at h; cases h
      · rw [hs] at h
        rw [stripSuffix_some] at hs
        refine ⟨[], e, ls, ?_, by simp, h⟩
        rw [hs]
        simp
    · rw [step_end _ m htl, if_pos (by simp)] at h
      cases h

/-! ## `decode_pem` in terms of the trimmed lines -/

/-- The part of `extract_pem_pieces` behind the loop, followed by the base64 decoding. -/
def finish (st : State) : Except Error PEM :=
  match st.beginLabel with
  | none => .error .beginMissing
  | some b =>
    match st.endLabel with
    | none => .error .endMissing
    | some e =>
      if e ≠ b then .error .labelMismatch
      else match Base64.decode st.dataLines.flatten with
        | none => .error .base64
        | some data => .ok ⟨b, data⟩

theorem decodePem_lines (s : List Char) : decodePem s =
    match (lines s).foldlM step ⟨none, [], none⟩ with
    | .error e => .error e
    | .ok st => finish st := by
  unfold decodePem extractPemPieces parsePemData finish
  rcases (lines s).foldlM step ⟨none, [], none⟩ with e | ⟨b, d, e⟩
  · rfl
  · simp only [bind, Except.bind]
    cases b with
    | none => rfl
    | some b =>
      cases e with
      | none => rfl
      | some e =>
        simp only
        by_cases h : e ≠ b
        · rw [if_pos h, if_pos h]
        · rw [if_neg h, if_neg h]
          simp only
          cases Base64.decode d.flatten <;> rfl

theorem finish_step_nil (st : State) : ∃ st', step st [] = .ok st' ∧ finish st' = finish st := by
  have h : PlainLine [] := by
    unfold PlainLine beginMark endMark
    simp
  rw [step_plain st [] rfl h]
  by_cases hc : st.beginLabel.isSome = true ∧ st.endLabel.isNone = true
  · rw [if_pos hc]
    refine ⟨_, rfl, ?_⟩
    obtain ⟨b, d, e⟩ := st
    cases b with
    | none => simp at hc
    | some b =>
      cases e with
      | some e => simp at hc
      | none => rfl
  · rw [if_neg hc]
    exact ⟨st, rfl, rfl⟩

theorem decodePem_eq (s : List Char) : decodePem s =
    match (trimmedLines s).foldlM step ⟨none, [], none⟩ with
    | .error e => .error e
    | .ok st => finish st := by
  rw [decodePem_lines]
  obtain ⟨tail, h1, h2⟩ := lines_spec s
  rw [h2, List.foldlM_append, foldlM_trim]
  rcases hf : (lines s).foldlM step ⟨none, [], none⟩ with e | st
  · rfl
  · rcases h1 with rfl | rfl
    · rfl
    · obtain ⟨st', h3, h4⟩ := finish_step_nil st
      simp only [bind, Except.bind, List.foldlM_cons, List.foldlM_nil, h3, pure, Except.pure, h4]

theorem trimmed_trim (s : List Char) : ∀ l ∈ trimmedLines s, trim l = l := by
  intro l hl
  unfold trimmedLines at hl
  obtain ⟨m, _, rfl⟩ := List.mem_map.1 hl
  rw [← trim_eq, trim_trim]

theorem decodePem_ok_iff (s : List Char) (pem : PEM) : decodePem s = .ok pem ↔
    ∃ pre body post, trimmedLines s = pre ++ [beginMark ++ pem.label ++ dashes] ++ body ++ [endMark ++ pem.label ++ dashes] ++ post ∧
      (∀ l ∈ pre, PlainLine l) ∧ (∀ l ∈ body, PlainLine l) ∧ (∀ l ∈ post, PlainLine l) ∧
      Base64.decode body.flatten = some pem.data := by
  have htrim := trimmed_trim s
  rw [decodePem_eq]
  constructor
  · intro h
    rcases hf : (trimmedLines s).foldlM step ⟨none, [], none⟩ with e | st
    · rw [hf] at h; cases h
    · rw [hf] at h
      simp only at h
      rcases fold_before _ htrim st hf with ⟨rfl, _⟩ | ⟨pre, b, rest, h1, h2, h3⟩
      · cases h
      · have htr : ∀ l ∈ rest, trim l = l := fun l hl => htrim l (by rw [h1]; simp [hl])
        rcases fold_inside b [] rest htr st h3 with ⟨rfl, _⟩ | ⟨body, e, post, h4, h5, h6, rfl⟩
        · cases h
        · unfold finish at h
          simp only at h
          by_cases he : e ≠ b
          · rw [if_pos he] at h; cases h
          · rw [if_neg he] at h
            have he' : e = b := not_not.1 he
            subst he'
            rcases hd : Base64.decode body.flatten with _ | data
            · rw [List.nil_append, hd] at h; cases h
            · rw [List.nil_append, hd] at h
              cases h
              exact ⟨pre, body, post, by rw [h1, h4]; simp, h2, h5, h6, hd⟩
  · rintro ⟨pre, body, post, h1, h2, h3, h4, h5⟩
    have hb : trim (beginMark ++ pem.label ++ dashes) = beginMark ++ pem.label ++ dashes := htrim _ (by rw [h1]; simp)
    have he : trim (endMark ++ pem.label ++ dashes) = endMark ++ pem.label ++ dashes := htrim _ (by rw [h1]; simp)
    have ep := fold_plain_out ⟨none, [], none⟩ (by simp) pre (fun l hl => htrim l (by rw [h1]; simp [hl])) h2
    have eb := fold_plain_in pem.label [] body (fun l hl => htrim l (by rw [h1]; simp [hl])) h3
    have eo := fold_plain_out ⟨some pem.label, body, some pem.label⟩ (by simp) post
      (fun l hl => htrim l (by rw [h1]; simp [hl])) h4
    rw [List.append_assoc] at hb he
    have sb := step_begin ⟨none, [], none⟩ (pem.label ++ dashes) hb
    rw [if_neg (by simp), stripSuffix_some.2 rfl] at sb
    have se := step_end ⟨some pem.label, body, none⟩ (pem.label ++ dashes) he
    rw [if_neg (by simp), if_neg (by simp), stripSuffix_some.2 rfl] at se
    have hfold : (trimmedLines s).foldlM step ⟨none, [], none⟩ = .ok ⟨some pem.label, body, some pem.label⟩ := by
      rw [h1]
      simp only [List.foldlM_append, List.append_assoc, List.foldlM_cons, List.foldlM_nil, ep, bind, Except.bind, sb, pure,
        Except.pure, eb, List.nil_append, se, eo]
    rw [hfold]
    simp only [finish, h5]
    rw [if_neg (by simp)]

/-! ## The writer -/

theorem wrapLoop_spec (cs line out : List Char) (i : Nat) (hi : i % 64 = line.length % 64) (hl : line.length ≤ 64)
    (h0 : i = 0 ↔ line = []) : ∃ (ls : List (List Char)) (last : List Char), wrapLoop cs i line out = (last, out ++ (ls.map (· ++ ['\n'])).flatten) ∧
      ls.flatten ++ last = line ++ cs ∧ (∀ l ∈ ls, l.length = 64) ∧ last.length ≤ 64 ∧ (last = [] → line ++ cs = []) := by
  induction cs generalizing line out i with
  | nil => exact ⟨[], line, by simp [wrapLoop], by simp, by simp, hl, by simp⟩
  | cons c cs ih =>
    unfold wrapLoop
    by_cases h : i % 64 = 0 ∧ i ≠ 0
    · rw [if_pos h]
      have hne : line ≠ [] := fun e => h.2 (h0.2 e)
      have hpos := List.length_pos_iff.2 hne
      obtain ⟨ls, last, h1, h2, h3, h4, h5⟩ := ih [c] (out ++ line ++ ['\n']) (i + 1) (by simp; omega) (by simp) (by simp)
      refine ⟨line :: ls, last, by rw [h1]; simp, by simp [h2], ?_, h4, ?_⟩
      · intro l hl'
        rcases List.mem_cons.1 hl' with rfl | hl'
        · omega
        · exact h3 l hl'
      · intro e
        have := h5 e
        simp at this
    · rw [if_neg h]
      have hlt : line.length < 64 := by
        by_contra hge
        have : line.length = 64 := by omega
        apply h
        refine ⟨by omega, fun e => ?_⟩
        rw [h0.1 e] at this
        simp at this
      obtain ⟨ls, last, h1, h2, h3, h4, h5⟩ := ih (line ++ [c]) out (i + 1) (by simp; omega) (by simp; omega) (by simp)
      exact ⟨ls, last, h1, by rw [h2]; simp, h3, h4, fun e => by have := h5 e; simp at this⟩

theorem flatten_map_nl (ls : List (List Char)) (last : List Char) :
    (ls.map (· ++ ['\n'])).flatten ++ last = ['\n'].intercalate (ls ++ [last]) := by
  induction ls with
  | nil => simp [List.intercalate]
  | cons l ls ih =>
    rw [List.cons_append, List.map_cons, List.flatten_cons, List.append_assoc, ih]
    unfold List.intercalate
    cases h : ls ++ [last] with
    | nil => simp at h
    | cons a as => simp [List.intersperse_cons_cons]

theorem display_spec (pem : PEM) : ∃ (ls : List (List Char)) (last : List Char),
    display pem = ['\n'].intercalate ([beginMark ++ pem.label ++ dashes] ++ ls ++ [last] ++ [endMark ++ pem.label ++ dashes]) ∧
    ls.flatten ++ last = Base64.encode pem.data ∧ (∀ l ∈ ls, l.length = 64) ∧ last.length ≤ 64 ∧
    (last = [] → pem.data = []) := by
  obtain ⟨ls, last, h1, h2, h3, h4, h5⟩ := wrapLoop_spec (Base64.encode pem.data) [] (beginMark ++ pem.label ++ dashes ++ ['\n']) 0
    (by simp) (by simp) (by simp)
  refine ⟨ls, last, ?_, by simpa using h2, h3, h4, ?_⟩
  · unfold display
    simp only [h1]
    have := flatten_map_nl ([beginMark ++ pem.label ++ dashes] ++ ls ++ [last]) (endMark ++ pem.label ++ dashes)
    rw [← this]
    simp
  · intro e
    have h6 := h5 e
    rw [List.nil_append] at h6
    have := Base64.decode_encode pem.data
    rw [h6] at this
    exact (Option.some.inj this).symm

/-! ## Characters of base64 text -/

/-- The characters of base64 text. -/
def IsBase64Char (c : Char) : Prop := c ∈ Base64.alphabet ∨ c = '='

theorem symbol_mem : ∀ n, n < 64 → Base64.symbol n ∈ Base64.alphabet := by decide +kernel

theorem encode_chars (data : List U8) : ∀ c ∈ Base64.encode data, IsBase64Char c := by
  induction data using Base64.encode.induct with
  | case1 => simp [Base64.encode]
  | case2 a =>
    have ha := a.isLt
    intro c hc
    unfold Base64.encode at hc
    simp only [List.mem_cons, List.not_mem_nil, or_false] at hc
    rcases hc with rfl | rfl | rfl | rfl
    · exact Or.inl (symbol_mem _ (by omega))
    · exact Or.inl (symbol_mem _ (by omega))
    · exact Or.inr rfl
    · exact Or.inr rfl
  | case3 a b =>
    have ha := a.isLt
    have hb := b.isLt
    intro c hc
    unfold Base64.encode at hc
    simp only [List.mem_cons, List.not_mem_nil, or_false] at hc
    rcases hc with rfl | rfl | rfl | rfl
    · exact Or.inl (symbol_mem _ (by omega))
    · exact Or.inl (symbol_mem _ (by omega))
    · exact Or.inl (symbol_mem _ (by omega))
    · exact Or.inr rfl
  | case4 a b c rest ih =>
    have ha := a.isLt
    have hb := b.isLt
    have hc' := c.isLt
    intro d hd
    unfold Base64.encode at hd
    simp only [List.mem_cons] at hd
    rcases hd with rfl | rfl | rfl | rfl | hd
    · exact Or.inl (symbol_mem _ (by omega))
    · exact Or.inl (symbol_mem _ (by omega))
    · exact Or.inl (symbol_mem _ (by omega))
    · exact Or.inl (symbol_mem _ (by omega))
    · exact ih d hd

theorem base64_not_ws (c : Char) (h : IsBase64Char c) : isWhitespace c = false := by
  have key : ∀ c ∈ Base64.alphabet, isWhitespace c = false := by decide +kernel
  rcases h with h | rfl
  · exact key c h
  · decide +kernel

theorem base64_ne (c : Char) (h : IsBase64Char c) : c ≠ '-' ∧ c ≠ '\n' := by
  have key : ∀ c ∈ Base64.alphabet, c ≠ '-' ∧ c ≠ '\n' := by decide +kernel
  rcases h with h | rfl
  · exact key c h
  · decide

theorem base64_line_plain (l : List Char) (h : ∀ c ∈ l, IsBase64Char c) : PlainLine l := by
  have : ∀ m, m ≠ [] → m.head? = some '-' → ¬ m <+: l := by
    rintro m hm hh ⟨t, ht⟩
    cases m with
    | nil => exact hm rfl
    | cons c m =>
      simp at hh
      subst hh
      exact (base64_ne '-' (h _ (by rw [← ht]; simp))).1 rfl
  exact ⟨this _ (by decide) rfl, this _ (by decide) rfl⟩

theorem base64_line_trim (l : List Char) (h : ∀ c ∈ l, IsBase64Char c) : trim l = l := by
  apply trim_self
  · intro c hc
    exact base64_not_ws c (h c (List.mem_of_head? hc))
  · intro c hc
    exact base64_not_ws c (h c (List.mem_of_getLast? hc))

theorem dashed_trim (m label : List Char) (hm : m.head? = some '-') : trim (m ++ label ++ dashes) = m ++ label ++ dashes := by
  apply trim_self
  · intro c hc
    rw [List.append_assoc, List.head?_append, hm] at hc
    simp at hc
    subst hc
    decide +kernel
  · intro c hc
    rw [List.getLast?_append] at hc
    have : dashes.getLast? = some '-' := rfl
    rw [this] at hc
    simp at hc
    subst hc
    decide +kernel

/-! ## Lines contain no line feed -/

theorem nl_not_mem_splitOn (s : List Char) : ∀ l ∈ s.splitOn '\n', '\n' ∉ l := by
  induction s with
  | nil => simp
  | cons c cs ih =>
    by_cases h : c = '\n'
    · subst h
      rw [splitOn_cons_nl]
      intro l hl
      rcases List.mem_cons.1 hl with rfl | hl
      · simp
      · exact ih l hl
    · rw [splitOn_cons_other c cs h]
      intro l hl
      cases hs : cs.splitOn '\n' with
      | nil => rw [hs] at hl; simp at hl
      | cons a as =>
        rw [hs] at hl ih
        simp only [List.modifyHead_cons, List.mem_cons] at hl
        rcases hl with rfl | hl
        · intro hm
          rcases List.mem_cons.1 hm with e | hm
          · exact h e.symm
          · exact ih a (by simp) hm
        · exact ih l (by simp [hl])

theorem mem_of_mem_trim {c : Char} {l : List Char} (h : c ∈ trim l) : c ∈ l := by
  unfold trim at h
  rw [List.mem_reverse] at h
  have h1 := (List.dropWhile_sublist _).subset h
  rw [List.mem_reverse] at h1
  exact (List.dropWhile_sublist _).subset h1

theorem nl_not_mem_trimmed (s : List Char) : ∀ l ∈ trimmedLines s, '\n' ∉ l := by
  intro l hl
  unfold trimmedLines at hl
  obtain ⟨m, hm, rfl⟩ := List.mem_map.1 hl
  rw [← trim_eq]
  intro h
  exact nl_not_mem_splitOn s m hm (mem_of_mem_trim h)

theorem decoded_label (s : List Char) (pem : PEM) (h : decodePem s = .ok pem) : '\n' ∉ pem.label := by
  obtain ⟨pre, body, post, h1, _⟩ := (decodePem_ok_iff s pem).1 h
  have := nl_not_mem_trimmed s (beginMark ++ pem.label ++ dashes) (by rw [h1]; simp)
  intro hm
  exact this (by simp [hm])

theorem decode_display (pem : PEM) (h : '\n' ∉ pem.label) : decodePem (display pem) = .ok pem := by
  rw [decodePem_ok_iff]
  obtain ⟨ls, last, h1, h2, _⟩ := display_spec pem
  have hchars : ∀ l ∈ ls ++ [last], ∀ c ∈ l, IsBase64Char c := by
    intro l hl c hc
    apply encode_chars pem.data c
    rw [← h2]
    rcases List.mem_append.1 hl with hl | hl
    · exact List.mem_append_left _ (List.mem_flatten.2 ⟨l, hl, hc⟩)
    · rw [List.mem_singleton] at hl
      exact List.mem_append_right _ (hl ▸ hc)
  have hb : '\n' ∉ beginMark ++ pem.label ++ dashes := by
    simp only [List.mem_append, not_or]
    exact ⟨⟨by decide, h⟩, by decide⟩
  have he : '\n' ∉ endMark ++ pem.label ++ dashes := by
    simp only [List.mem_append, not_or]
    exact ⟨⟨by decide, h⟩, by decide⟩
  have hsplit : (display pem).splitOn '\n' =
      [beginMark ++ pem.label ++ dashes] ++ ls ++ [last] ++ [endMark ++ pem.label ++ dashes] := by
    rw [h1, List.splitOn_intercalate]
    · intro l hl
      rw [List.append_assoc [beginMark ++ pem.label ++ dashes], List.mem_append, List.mem_append] at hl
      rcases hl with (hl | hl) | hl
      · rw [List.mem_singleton] at hl; rw [hl]; exact hb
      · intro hm; exact (base64_ne _ (hchars l hl _ hm)).2 rfl
      · rw [List.mem_singleton] at hl; rw [hl]; exact he
    · simp
  refine ⟨[], ls ++ [last], [], ?_, by simp, ?_, by simp, ?_⟩
  · unfold trimmedLines
    rw [hsplit]
    have : ∀ l ∈ [beginMark ++ pem.label ++ dashes] ++ ls ++ [last] ++ [endMark ++ pem.label ++ dashes], Spec.Pem.trim l = l := by
      intro l hl
      rw [← trim_eq]
      rw [List.append_assoc [beginMark ++ pem.label ++ dashes], List.mem_append, List.mem_append] at hl
      rcases hl with (hl | hl) | hl
      · rw [List.mem_singleton] at hl; rw [hl]; exact dashed_trim _ _ rfl
      · exact base64_line_trim l (hchars l hl)
      · rw [List.mem_singleton] at hl; rw [hl]; exact dashed_trim _ _ rfl
    rw [List.map_congr_left this]
    simp
  · intro l hl
    exact base64_line_plain l (hchars l hl)
  · rw [List.flatten_append, List.flatten_singleton, h2, Base64.decode_encode]

/-! ## Layout -/

theorem decodePem_congr (s s' : List Char) (h : trimmedLines s = trimmedLines s') : decodePem s = decodePem s' := by
  rw [decodePem_eq, decodePem_eq, h]

theorem trimmedLines_append (p s : List Char) : trimmedLines (p ++ '\n' :: s) = trimmedLines p ++ trimmedLines s := by
  unfold trimmedLines
  rw [List.splitOn_append_cons_self, List.map_append]

theorem decodePem_before (p s : List Char) (h : ∀ l ∈ trimmedLines p, PlainLine l) :
    decodePem (p ++ '\n' :: s) = decodePem s := by
  rw [decodePem_eq, decodePem_eq, trimmedLines_append, List.foldlM_append,
    fold_plain_out ⟨none, [], none⟩ (by simp) _ (trimmed_trim p) h]
  rfl

theorem decodePem_after (s q : List Char) (h : ∀ l ∈ trimmedLines q, PlainLine l) :
    decodePem (s ++ '\n' :: q) = decodePem s := by
  rw [decodePem_eq, decodePem_eq, trimmedLines_append, List.foldlM_append]
  rcases hf : (trimmedLines s).foldlM step ⟨none, [], none⟩ with e | st
  · rfl
  · simp only [bind, Except.bind]
    by_cases hst : st.beginLabel.isSome = true ∧ st.endLabel.isNone = true
    · obtain ⟨b, d, e⟩ := st
      cases b with
      | none => simp at hst
      | some b =>
        cases e with
        | some e => simp at hst
        | none => rw [fold_plain_in b d _ (trimmed_trim q) h]; rfl
    · rw [fold_plain_out st hst _ (trimmed_trim q) h]

/-- The same up to the way the data is cut into lines. -/
def Same (a b : Except Error State) : Prop :=
  match a, b with
  | .error e, .error e' => e = e'
  | .ok x, .ok y => x.beginLabel = y.beginLabel ∧ x.endLabel = y.endLabel ∧ x.dataLines.flatten = y.dataLines.flatten
  | _, _ => False

theorem step_same (x y : State) (h : Same (.ok x) (.ok y)) (l : List Char) : Same (step x l) (step y l) := by
  obtain ⟨b, d, e⟩ := x
  obtain ⟨b', d', e'⟩ := y
  obtain ⟨h1, h2, h3⟩ := h
  simp only at h1 h2 h3
  subst h1; subst h2
  unfold step
  simp only
  split
  · split
    · rfl
    · split
      · exact ⟨rfl, rfl, h3⟩
      · rfl
  · split
    · split
      · rfl
      · split
        · rfl
        · split
          · exact ⟨rfl, rfl, h3⟩
          · rfl
    · split
      · exact ⟨rfl, rfl, by simp [h3]⟩
      · exact ⟨rfl, rfl, h3⟩

theorem fold_same (ls : List (List Char)) (x y : State) (h : Same (.ok x) (.ok y)) :
    Same (ls.foldlM step x) (ls.foldlM step y) := by
  induction ls generalizing x y with
  | nil => exact h
  | cons l ls ih =>
    have := step_same x y h l
    simp only [List.foldlM_cons, bind, Except.bind]
    rcases hx : step x l with e | x' <;> rcases hy : step y l with e' | y' <;> rw [hx, hy] at this
    · exact this
    · exact this.elim
    · exact this.elim
    · exact ih x' y' this

theorem fold_body_same (x : State) (body body' : List (List Char)) (ht : ∀ l ∈ body, trim l = l) (ht' : ∀ l ∈ body', trim l = l)
    (hp : ∀ l ∈ body, PlainLine l) (hp' : ∀ l ∈ body', PlainLine l) (he : body.flatten = body'.flatten) :
    Same (body.foldlM step x) (body'.foldlM step x) := by
  by_cases hst : x.beginLabel.isSome = true ∧ x.endLabel.isNone = true
  · obtain ⟨b, d, e⟩ := x
    cases b with
    | none => simp at hst
    | some b =>
      cases e with
      | some e => simp at hst
      | none =>
        rw [fold_plain_in b d _ ht hp, fold_plain_in b d _ ht' hp']
        exact ⟨rfl, rfl, by simp [he]⟩
  · rw [fold_plain_out x hst _ ht hp, fold_plain_out x hst _ ht' hp']
    exact ⟨rfl, rfl, rfl⟩

theorem finish_same (x y : State) (h : Same (.ok x) (.ok y)) : finish x = finish y := by
  obtain ⟨b, d, e⟩ := x
  obtain ⟨b', d', e'⟩ := y
  obtain ⟨h1, h2, h3⟩ := h
  simp only at h1 h2 h3
  subst h1; subst h2
  unfold finish
  simp only [h3]

theorem decodePem_rewrap (s s' : List Char) (pre body body' post : List (List Char))
    (h : trimmedLines s = pre ++ body ++ post) (h' : trimmedLines s' = pre ++ body' ++ post)
    (hp : ∀ l ∈ body, PlainLine l) (hp' : ∀ l ∈ body', PlainLine l) (he : body.flatten = body'.flatten) :
    decodePem s = decodePem s' := by
  have ht := trimmed_trim s
  have ht' := trimmed_trim s'
  rw [decodePem_eq, decodePem_eq]
  rw [h] at ht ⊢
  rw [h'] at ht' ⊢
  simp only [List.foldlM_append, bind, Except.bind]
  rcases hx : pre.foldlM step ⟨none, [], none⟩ with e | x
  · rfl
  · simp only
    have h1 := fold_body_same x body body' (fun l hl => ht l (by simp [hl])) (fun l hl => ht' l (by simp [hl])) hp hp' he
    rcases hy : body.foldlM step x with e | y <;> rcases hz : body'.foldlM step x with e' | z <;> rw [hy, hz] at h1
    · simp only
      rw [show e = e' from h1]
    · exact h1.elim
    · exact h1.elim
    · simp only
      have h2 := fold_same post y z h1
      rcases hv : post.foldlM step y with e | v <;> rcases hw : post.foldlM step z with e' | w <;> rw [hv, hw] at h2
      · rw [show e = e' from h2]
      · exact h2.elim
      · exact h2.elim
      · exact finish_same v w h2

end Verif.Model.Pem
