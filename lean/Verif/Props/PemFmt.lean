import Verif.Model.PemFmt
import Verif.Props.Pem

/-! # C119: printing a PEM structure to a formatter that may fail

`Writer σ` is an arbitrary formatter with states `σ`: `write s str` is the state after the string was offered, and whether it
was taken. `fmt` returns `.ok` of the last state for Rust's `Ok(())` and `.error` of the last state for `Err`. -/

namespace Verif.Props
open Verif Verif.Model.Pem

/-- Offer strings one after another until one is refused. -/
def offer {σ : Type} (write : Writer σ) (s : σ) : List (List Char) → Except σ σ
  | [] => .ok s
  | p :: ps => match write s p with
    | (s, true) => offer write s ps
    | (s, false) => .error s

theorem offer_eq {σ : Type} (write : Writer σ) (ps : List (List Char)) (s : σ) : offer write s ps = writeFmt write s ps := by
  induction ps generalizing s with
  | nil => rfl
  | cons p ps ih =>
    unfold offer writeFmt
    rw [List.foldlM_cons, writeStr]
    rcases write s p with ⟨s', _ | _⟩
    · rfl
    · exact ih s'

theorem writeFmt_append {σ : Type} (write : Writer σ) (ps qs : List (List Char)) (s : σ) :
    writeFmt write s (ps ++ qs) = (writeFmt write s ps >>= fun s => writeFmt write s qs) := List.foldlM_append

theorem fmtLoop_eq (cs : List Char) (i : Nat) (line out : List Char) : ∃ ps line',
    wrapLoop cs i line out = (line', out ++ ps.flatten) ∧
      ∀ {σ : Type} (write : Writer σ) s, fmtLoop write cs i line s = (writeFmt write s ps >>= fun s => .ok (line', s)) := by
  induction cs generalizing i line out with
  | nil => exact ⟨[], line, by simp [wrapLoop], fun _ _ => rfl⟩
  | cons c cs ih =>
    by_cases h : i % 64 = 0 ∧ i ≠ 0
    · obtain ⟨ps, line', h1, h2⟩ := ih (i + 1) [c] (out ++ line ++ ['\n'])
      refine ⟨[line, ['\n']] ++ ps, line', ?_, fun write s => ?_⟩
      · rw [wrapLoop, if_pos h, h1]; simp
      · rw [fmtLoop, if_pos h, writeFmt_append]
        rcases writeFmt write s [line, ['\n']] with e | s'
        · rfl
        · exact h2 write s'
    · obtain ⟨ps, line', h1, h2⟩ := ih (i + 1) (line ++ [c]) out
      exact ⟨ps, line', by rw [wrapLoop, if_neg h, h1], fun write s => by rw [fmtLoop, if_neg h, h2 write s]⟩

/-- C119: whatever the formatter does, printing offers it the pieces of one fixed text, the one of the other theorems (C61, C64),
in order and until one is refused; it succeeds exactly if none is. -/
theorem C119_offers (pem : PEM) : ∃ ps : List (List Char),
    ps.flatten = display pem ∧ ∀ {σ : Type} (write : Writer σ) (s : σ), fmt write s pem = offer write s ps := by
  obtain ⟨ps, line, h1, h2⟩ := fmtLoop_eq (Model.Base64.encode pem.data) 0 [] (beginMark ++ pem.label ++ dashes ++ ['\n'])
  refine ⟨[beginMark, pem.label, dashes ++ ['\n']] ++ ps ++ [line, ['\n']] ++ [endMark, pem.label, dashes], ?_, fun write s => ?_⟩
  · unfold display
    simp only [h1]
    simp
  · rw [offer_eq, writeFmt_append, writeFmt_append, writeFmt_append]
    unfold fmt
    rcases writeFmt write s [beginMark, pem.label, dashes ++ ['\n']] with e | s1
    · rfl
    show (fmtLoop write (Model.Base64.encode pem.data) 0 [] s1 >>= _) = _
    rw [h2 write s1]
    show _ = ((writeFmt write s1 ps >>= _) >>= _)
    rcases writeFmt write s1 ps with e | s2
    · rfl
    show (writeFmt write s2 [line, ['\n']] >>= _) = (writeFmt write s2 [line, ['\n']] >>= _)
    rcases writeFmt write s2 [line, ['\n']] with e | s3 <;> rfl

/-- A formatter with all it was offered (`log`) and what it took (`taken`) recorded. -/
structure Recorded (σ : Type) where
  state : σ
  log : List Char
  taken : List Char

/-- Record what is offered to a formatter and what it takes. -/
def record {σ : Type} (write : Writer σ) : Writer (Recorded σ) := fun r str =>
  let (s, ok) := write r.state str
  (⟨s, r.log ++ str, if ok then r.taken ++ str else r.taken⟩, ok)

theorem offer_record {σ : Type} (write : Writer σ) (ps : List (List Char)) (r : Recorded σ) (h : r.taken = r.log) :
    (∃ r', offer (record write) r ps = .ok r' ∧ r'.log = r.log ++ ps.flatten ∧ r'.taken = r.log ++ ps.flatten) ∨
    ∃ r' before p after, offer (record write) r ps = .error r' ∧ ps = before ++ p :: after ∧
      r'.taken = r.log ++ before.flatten ∧ r'.log = r.log ++ before.flatten ++ p := by
  induction ps generalizing r with
  | nil => exact .inl ⟨r, rfl, by simp, by simp [h]⟩
  | cons p ps ih =>
    unfold offer
    simp only [record]
    rcases write r.state p with ⟨s, _ | _⟩
    · exact .inr ⟨_, [], p, ps, rfl, rfl, by simp [h], by simp⟩
    · rcases ih ⟨s, r.log ++ p, r.taken ++ p⟩ (by simp [h]) with ⟨r', e, l, t⟩ | ⟨r', b, q, a, e, hb, t, l⟩
      · exact .inl ⟨r', e, by simp [l], by simp [t]⟩
      · exact .inr ⟨r', p :: b, q, a, e, by simp [hb], by simp [t], by simp [l]⟩

/-- C119: success means that the formatter took exactly the whole text; after a failure what it took, and what it was offered, is
a beginning of the text: nothing is left out, and nothing is offered after the refused piece. -/
theorem C119_prefix {σ : Type} (write : Writer σ) (s : σ) (pem : PEM) :
    (∀ r, fmt (record write) ⟨s, [], []⟩ pem = .ok r → r.taken = display pem ∧ r.log = display pem) ∧
    ∀ r, fmt (record write) ⟨s, [], []⟩ pem = .error r →
      r.taken <+: r.log ∧ r.log <+: display pem := by
  obtain ⟨ps, hp, h⟩ := C119_offers pem
  rw [h, ← hp]
  rcases offer_record write ps ⟨s, [], []⟩ rfl with ⟨r, e, l, t⟩ | ⟨r, b, q, a, e, hb, t, l⟩
  · rw [e]
    refine ⟨fun r' hr => ?_, fun r' hr => by simp at hr⟩
    rw [← Except.ok.inj hr]
    exact ⟨by simpa using t, by simpa using l⟩
  · rw [e]
    refine ⟨fun r' hr => by simp at hr, fun r' hr => ?_⟩
    rw [← Except.error.inj hr, t, l, hb]
    exact ⟨List.prefix_append _ _, ⟨a.flatten, by simp⟩⟩

/-- C119: recording does not change what happens. -/
theorem C119_record {σ : Type} (write : Writer σ) (s : σ) (pem : PEM) :
    (∀ r, fmt (record write) ⟨s, [], []⟩ pem = .ok r → fmt write s pem = .ok r.state) ∧
    ∀ r, fmt (record write) ⟨s, [], []⟩ pem = .error r → fmt write s pem = .error r.state := by
  obtain ⟨ps, _, h⟩ := C119_offers pem
  rw [h (record write), h write]
  have hw : ∀ (ps : List (List Char)) (r : Recorded σ), 
      (∀ r', offer (record write) r ps = .ok r' → offer write r.state ps = .ok r'.state) ∧
      ∀ r', offer (record write) r ps = .error r' → offer write r.state ps = .error r'.state := by
    intro ps
    induction ps with
    | nil => intro r; exact ⟨fun r' e => by rw [← Except.ok.inj e]; rfl, fun r' e => by simp [offer] at e⟩
    | cons p ps ih =>
      intro r
      unfold offer
      rcases e : write r.state p with ⟨s', _ | _⟩
      · simp only [record, e]
        exact ⟨fun r' e => by simp at e, fun r' e => by rw [← Except.error.inj e]⟩
      · simp only [record, e]
        exact ih _
  exact hw ps ⟨s, [], []⟩

/-- C119 for a buffer that takes at most `n` characters: printing succeeds exactly if the text fits, and then the buffer holds it;
otherwise the buffer holds a beginning of the text. -/
theorem C119_buffer (n : Nat) (pem : PEM) :
    let write : Writer (List Char) := fun s str => if (s ++ str).length ≤ n then (s ++ str, true) else (s, false)
    (if (display pem).length ≤ n then fmt write [] pem = .ok (display pem)
     else ∃ s, fmt write [] pem = .error s ∧ s <+: display pem) := by
  intro write
  obtain ⟨ps, hp, h⟩ := C119_offers pem
  rw [h write, ← hp]
  have hw : ∀ (ps : List (List Char)) (s : List Char), s.length ≤ n → if (s ++ ps.flatten).length ≤ n then
      offer write s ps = .ok (s ++ ps.flatten) else ∃ s', offer write s ps = .error s' ∧ s' <+: s ++ ps.flatten := by
    intro ps
    induction ps with
    | nil => intro s hs; rw [if_pos (by simpa using hs)]; simp [offer]
    | cons p ps ih =>
      intro s hs
      by_cases hl : (s ++ p).length ≤ n
      · have ho : offer write s (p :: ps) = offer write (s ++ p) ps := by
          unfold offer; simp only [write, if_pos hl]; rw [offer.eq_def]
        have := ih (s ++ p) hl
        rw [ho]
        simpa using this
      · have ho : offer write s (p :: ps) = .error s := by
          unfold offer; simp only [write, if_neg hl]
        rw [if_neg (by simp at hl ⊢; omega), ho]
        exact ⟨s, rfl, List.prefix_append _ _⟩
  simpa using hw ps [] (by simp)

/-- Not vacuous: a buffer of 20 characters refuses the base64 line and holds the BEGIN line. -/
example : fmt (fun s str => if (s ++ str).length ≤ 20 then (s ++ str, true) else (s, false)) [] ⟨"X".toList, [1#8, 2#8, 255#8]⟩ =
    .error "-----BEGIN X-----\n".toList := by decide +kernel
example : fmt (fun s str => (s ++ str, true)) [] ⟨"X".toList, [1#8, 2#8, 255#8]⟩ =
    .ok (display ⟨"X".toList, [1#8, 2#8, 255#8]⟩) := by decide +kernel

end Verif.Props
