import Verif.Model.Text
import Verif.Spec.Text
import Mathlib.Data.List.Basic

/-! # The texts of the errors -/

namespace Verif.Model.Text
open Verif Verif.Spec.Text
open Verif.Model.Asn1 (Asn1)

theorem decimal_eq (n : Nat) : decimal n = number n := by
  unfold decimal number
  rw [Nat.toString_eq_ofList_toDigits, String.toList_ofList]

theorem entries_eq : ∀ l, entries l = List.intercalate chars!", " l
  | [] => rfl
  | [x] => by simp [entries, List.intercalate]
  | x :: y :: l => by
    rw [entries, entries_eq (y :: l)]
    simp [List.intercalate, List.intersperse]

theorem debugBytes_eq (l : List U8) : debugBytes l = bytesText l := by
  unfold debugBytes bytesText listing
  rw [entries_eq]
  simp only [decimal_eq]

mutual
theorem debug_eq : ∀ t, debug t = shown t
  | .integer b => by rw [debug, shown, debugBytes_eq]
  | .octetString b => by rw [debug, shown, debugBytes_eq]
  | .bitString b u => by rw [debug, shown, debugBytes_eq, decimal_eq]
  | .null => rfl
  | .objectIdentifier b => by rw [debug, shown, debugBytes_eq]
  | .sequence l => by
    rw [debug, shown, debugAll_eq l, entries_eq]
    unfold listing
    have h : chars!"Sequence([" = chars!"Sequence(" ++ chars!"[" := rfl
    rw [h]
    simp only [List.append_assoc]
    rfl
theorem debugAll_eq : ∀ l, debugAll l = shownAll l
  | [] => rfl
  | t :: l => by rw [debugAll, shownAll, debug_eq t, debugAll_eq l]
end

/-! ## Numbers can be read back -/

theorem decimal_inj {n m : Nat} (h : decimal n = decimal m) : n = m := by
  have := congrArg (fun l => Nat.ofDigitChars 10 l 0) h
  simpa [decimal, Nat.ofDigitChars_ten_toDigits] using this

theorem isDigit_decimal {n : Nat} {c : Char} (h : c ∈ decimal n) : c.isDigit = true :=
  Nat.isDigit_of_mem_toDigits (by omega) (by omega) h

theorem decimal_ne_nil (n : Nat) : decimal n ≠ [] := Nat.toDigits_ne_nil

/-- `r` does not go on with a digit. -/
def NoDigit (r : List Char) : Prop := ∀ c ∈ r.head?, c.isDigit = false

theorem takeWhile_decimal (n : Nat) (r : List Char) (h : NoDigit r) : (decimal n ++ r).takeWhile Char.isDigit = decimal n := by
  rw [List.takeWhile_append_of_pos fun c hc => isDigit_decimal hc]
  cases r with
  | nil => simp
  | cons c r =>
    rw [List.takeWhile_cons_of_neg (by simp [h c (by simp)])]
    simp

theorem decimal_append_inj {n m : Nat} {r r' : List Char} (h : NoDigit r) (h' : NoDigit r')
    (he : decimal n ++ r = decimal m ++ r') : n = m ∧ r = r' := by
  have h1 := takeWhile_decimal n r h
  rw [he, takeWhile_decimal m r' h'] at h1
  have h2 := decimal_inj h1
  subst h2
  exact ⟨rfl, List.append_cancel_left he⟩

/-! ## Listings can be read back -/

theorem entries_cons (x : List Char) : ∀ l, entries (x :: l) = x ++ l.flatMap fun y => ',' :: ' ' :: y
  | [] => by simp [entries]
  | y :: l => by rw [entries, entries_cons y l]; simp

/-- `f a` can be told apart from `f b` when a comma or a bracket follows. -/
def Readable {α : Type} (f : α → List Char) (a : α) : Prop := ∀ b r r' c c', c.isDigit = false → c'.isDigit = false →
  f a ++ c :: r = f b ++ c' :: r' → a = b ∧ c :: r = c' :: r'

theorem flatMap_inj {α : Type} (f : α → List Char) : ∀ (l l' : List α) (r r' : List Char), (∀ a ∈ l, Readable f a) →
    (l.map f).flatMap (fun y => ',' :: ' ' :: y) ++ ']' :: r = (l'.map f).flatMap (fun y => ',' :: ' ' :: y) ++ ']' :: r' →
    l = l' ∧ r = r'
  | [], [], r, r', _, h => by simpa using h
  | [], _ :: _, _, _, _, h => by simp at h
  | _ :: _, [], _, _, _, h => by simp at h
  | a :: l, b :: l', r, r', hr, h => by
    simp only [List.map_cons, List.flatMap_cons, List.cons_append, List.append_assoc, List.cons.injEq, true_and] at h
    have hnext : ∀ (l : List α) (r : List Char), ∃ c t, c.isDigit = false ∧
        (l.map f).flatMap (fun y => ',' :: ' ' :: y) ++ ']' :: r = c :: t := by
      intro l r
      cases l with
      | nil => exact ⟨']', r, rfl, rfl⟩
      | cons x l => exact ⟨',', _, rfl, rfl⟩
    obtain ⟨c, t, hc, e⟩ := hnext l r
    obtain ⟨c', t', hc', e'⟩ := hnext l' r'
    rw [e, e'] at h
    obtain ⟨h1, h2⟩ := hr a (by simp) b t t' c c' hc hc' h
    rw [← e, ← e'] at h2
    obtain ⟨h3, h4⟩ := flatMap_inj f l l' r r' (fun a ha => hr a (by simp [ha])) h2
    exact ⟨by rw [h1, h3], h4⟩

theorem entries_inj {α : Type} (f : α → List Char) (hf : ∀ a, ∃ c t, f a = c :: t ∧ c ≠ ']') (l l' : List α)
    (r r' : List Char) (hr : ∀ a ∈ l, Readable f a)
    (h : entries (l.map f) ++ ']' :: r = entries (l'.map f) ++ ']' :: r') : l = l' ∧ r = r' := by
  cases l with
  | nil =>
    cases l' with
    | nil => simpa [entries] using h
    | cons b l' =>
      obtain ⟨c, t, e, hc⟩ := hf b
      rw [List.map_cons, entries_cons, e] at h
      simp only [List.map_nil, entries, List.nil_append, List.cons_append, List.cons.injEq] at h
      exact absurd h.1.symm hc
  | cons a l =>
    cases l' with
    | nil =>
      obtain ⟨c, t, e, hc⟩ := hf a
      rw [List.map_cons, entries_cons, e] at h
      simp only [List.map_nil, entries, List.nil_append, List.cons_append, List.cons.injEq] at h
      exact absurd h.1 hc
    | cons b l' =>
      refine flatMap_inj f (a :: l) (b :: l') r r' hr ?_
      rw [List.map_cons, List.map_cons, entries_cons, entries_cons] at h
      simp only [List.map_cons, List.flatMap_cons, List.cons_append]
      rw [h]

theorem debugBytes_append_inj {l l' : List U8} {r r' : List Char} (h : debugBytes l ++ r = debugBytes l' ++ r') :
    l = l' ∧ r = r' := by
  unfold debugBytes at h
  simp only [List.cons_append, List.nil_append, List.append_assoc, List.cons.injEq, true_and] at h
  refine entries_inj (fun b : U8 => decimal b.toNat) ?_ l l' r r' ?_ h
  · intro a
    rcases hd : decimal a.toNat with _ | ⟨c, t⟩
    · exact absurd hd (decimal_ne_nil _)
    · refine ⟨c, t, rfl, ?_⟩
      rintro rfl
      have := isDigit_decimal (n := a.toNat) (c := ']') (by rw [hd]; simp)
      exact absurd this (by decide)
  · intro a _ b r r' c c' hc hc' h
    obtain ⟨h1, h2⟩ := decimal_append_inj (r := c :: r) (r' := c' :: r') (by simpa [NoDigit] using hc)
      (by simpa [NoDigit] using hc') h
    exact ⟨BitVec.eq_of_toNat_eq h1, h2⟩

theorem debugAll_map : ∀ l, debugAll l = l.map debug
  | [] => rfl
  | t :: l => by rw [debugAll, debugAll_map l]; rfl

theorem debug_head (t : Asn1) : ∃ c s, debug t = c :: s ∧ c ≠ ']' := by
  cases t <;> rw [debug] <;> exact ⟨_, _, rfl, by decide⟩

theorem debug_append_inj : ∀ (t u : Asn1) (r r' : List Char), debug t ++ r = debug u ++ r' → t = u ∧ r = r'
  | .integer b, u, r, r', h => by
    cases u <;> simp [debug] at h
    obtain ⟨h1, h2⟩ := debugBytes_append_inj h
    simpa [h1] using h2
  | .octetString b, u, r, r', h => by
    cases u <;> simp [debug] at h
    obtain ⟨h1, h2⟩ := debugBytes_append_inj h
    simpa [h1] using h2
  | .bitString b v, u, r, r', h => by
    cases u <;> simp [debug] at h
    obtain ⟨h1, h2⟩ := debugBytes_append_inj h
    simp only [List.cons.injEq, true_and] at h2
    obtain ⟨h3, h4⟩ := decimal_append_inj (by simp [NoDigit]) (by simp [NoDigit]) h2
    rw [h1, BitVec.eq_of_toNat_eq h3]
    simpa using h4
  | .null, u, r, r', h => by
    cases u <;> simp [debug] at h
    exact ⟨rfl, h⟩
  | .objectIdentifier b, u, r, r', h => by
    cases u <;> simp [debug] at h
    obtain ⟨h1, h2⟩ := debugBytes_append_inj h
    simpa [h1] using h2
  | .sequence l, u, r, r', h => by
    cases u <;> simp [debug] at h
    rename_i l'
    rw [debugAll_map, debugAll_map] at h
    obtain ⟨h1, h2⟩ := entries_inj debug debug_head l l' (')' :: r) (')' :: r')
      (fun a ha b s s' c c' _ _ he => debug_append_inj a b (c :: s) (c' :: s') he) h
    simpa [h1] using h2
termination_by t => sizeOf t
decreasing_by
  have := List.sizeOf_lt_of_mem ha
  simp
  omega

theorem debug_inj {t u : Asn1} (h : debug t = debug u) : t = u :=
  (debug_append_inj t u [] [] (by simpa using h)).1

/-! ## The sentences can be told apart -/

theorem asn1Error_inj : ∀ e e', asn1Error e = asn1Error e' → e = e'
  | .tagHadNoLength, e', h => by cases e' <;> simp [asn1Error] at h ⊢
  | .tooLittleData tag n k, e', h => by
    cases e' <;> simp [asn1Error] at h ⊢
    obtain ⟨h1, h2⟩ := decimal_append_inj (by simp [NoDigit]) (by simp [NoDigit]) h
    simp only [List.cons.injEq, true_and] at h2
    obtain ⟨h3, h4⟩ := decimal_append_inj (by simp [NoDigit]) (by simp [NoDigit]) h2
    simp only [List.cons.injEq, true_and] at h4
    exact ⟨BitVec.eq_of_toNat_eq h1, h3, decimal_inj h4⟩
  | .inSequence e, e', h => by
    cases e' <;> simp [asn1Error] at h ⊢
    exact asn1Error_inj _ _ h
  | .unknownTag tag, e', h => by
    cases e' <;> simp [asn1Error] at h ⊢
    exact BitVec.eq_of_toNat_eq (decimal_inj h)
  | .extraBytes, e', h => by cases e' <;> simp [asn1Error] at h ⊢

set_option maxHeartbeats 4000000 in
theorem keyError_inj (e : RsaAsn1.Error) : ∀ e', keyError e = keyError e' → e = e' := by
  induction e with
  | notASequence t =>
    intro e' h
    cases e' <;> simp [keyError] at h ⊢ <;>
    first | exact debug_inj h | (rename_i x; cases x <;> simp [asn1Error] at h)
  | privateKeyBytes x =>
    intro e' h
    cases e' <;> simp [keyError] at h ⊢ <;>
    first | exact asn1Error_inj _ _ h | (rename_i y; cases y <;> simp [asn1Error] at h)
  | publicKeyBytes x =>
    intro e' h
    cases e' <;> simp [keyError] at h ⊢ <;>
    first | exact asn1Error_inj _ _ h | (rename_i y; cases y <;> simp [asn1Error] at h)
  | privateKey x ih =>
    intro e' h
    cases e' <;> simp [keyError] at h ⊢ <;>
    first | exact ih _ h | (rename_i y; cases y <;> simp [asn1Error] at h)
  | publicKey x ih =>
    intro e' h
    cases e' <;> simp [keyError] at h ⊢ <;>
    first | exact ih _ h | (rename_i y; cases y <;> simp [asn1Error] at h)
  | asn1 x =>
    intro e' h
    cases e' <;> simp [keyError] at h ⊢ <;>
    first | exact asn1Error_inj _ _ h | (cases x <;> simp [asn1Error] at h)
  | _ =>
    intro e' h
    cases e' <;> simp [keyError] at h ⊢ <;>
    (rename_i y; cases y <;> simp [asn1Error] at h)

end Verif.Model.Text
