import Verif.Proof.Text
import Verif.Model.Debug
import Verif.Spec.Debug

/-! # Lemmas for C143 -/

namespace Verif.Model.Debug
open Verif Verif.Model.Text Verif.Spec.Debug

theorem scan_digits (list : List Nat) (r : List Char) : ∀ (l : List Char) (x : Nat), (∀ c ∈ l, c.isDigit = true) →
    scan list (some x) (l ++ r) = scan list (some (Nat.ofDigitChars 10 l x)) r
  | [], x, _ => by simp
  | c :: l, x, h => by
    rw [List.cons_append, scan, if_pos (h c (by simp)), scan_digits list r l _ fun c hc => h c (by simp [hc]),
      Nat.ofDigitChars_cons]
    rfl

theorem scan_decimal (list : List Nat) (n : Nat) (r : List Char) : scan list none (decimal n ++ r) = scan list (some n) r := by
  have h := decimal_ne_nil n
  have h1 := Nat.ofDigitChars_ten_toDigits (n := n)
  have h2 : ∀ c ∈ decimal n, c.isDigit = true := fun c hc => isDigit_decimal hc
  unfold decimal at *
  cases hd : Nat.toDigits 10 n with
  | nil => exact absurd hd h
  | cons c l =>
    rw [hd] at h1 h2
    rw [List.cons_append, scan, if_pos (h2 c (by simp)), scan_digits _ _ _ _ fun c hc => h2 c (by simp [hc])]
    rw [Nat.ofDigitChars_cons] at h1
    simpa using congrArg (fun x => scan list (some x) r) h1

/-- Text without digits and brackets is skipped. -/
theorem scan_words (r : List Char) : ∀ (l : List Char), (∀ c ∈ l, c.isDigit = false ∧ c ≠ '[' ∧ c ≠ ']') →
    ∀ list, scan list none (l ++ r) = scan list none r
  | [], _, _ => rfl
  | c :: l, h, list => by
    obtain ⟨h1, h2, h3⟩ := h c (by simp)
    rw [List.cons_append, scan, h1, if_neg (by simp), if_neg h2, if_neg h3]
    simp only [Option.toList_none, List.append_nil]
    exact scan_words r l (fun c hc => h c (by simp [hc])) list

theorem scan_flat (r : List Char) : ∀ (l : List U8) (list : List Nat) (x : Nat),
    scan list (some x) ((l.map fun b => decimal b.toNat).flatMap (fun y => ',' :: ' ' :: y) ++ ']' :: r) =
      (list ++ x :: l.map (·.toNat)) :: scan [] none r
  | [], list, x => by simp [scan]
  | b :: l, list, x => by
    simp only [List.map_cons, List.flatMap_cons, List.cons_append, List.append_assoc]
    rw [scan, if_neg (by decide), if_neg (by decide), if_neg (by decide), scan, if_neg (by decide), if_neg (by decide),
      if_neg (by decide)]
    simp only [Option.toList_none, List.append_nil]
    rw [scan_decimal, scan_flat r l]
    simp

theorem scan_bytes (list : List Nat) (l : List U8) (r : List Char) :
    scan list none (debugBytes l ++ r) = l.map (·.toNat) :: scan [] none r := by
  unfold debugBytes
  simp only [List.cons_append, List.nil_append, List.append_assoc]
  rw [scan, if_neg (by decide), if_pos rfl]
  cases l with
  | nil => simp [entries, scan]
  | cons b l =>
    rw [List.map_cons, entries_cons, List.append_assoc, scan_decimal, scan_flat]
    simp

theorem scan_big (list : List Nat) (x : Big.BigUint) (r : List Char) :
    scan list none (debugBig x ++ r) = x.bytes.map (·.toNat) :: scan [] none r := by
  unfold debugBig struct field
  simp only [entries, List.append_assoc]
  rw [scan_words _ _ (by decide), scan_words _ _ (by decide), scan_words _ _ (by decide), scan_words _ _ (by decide), scan_bytes,
    scan_words _ _ (by decide)]

theorem lists_two (name f g : List Char) (x y : Big.BigUint)
    (h : ∀ c ∈ name ++ f ++ g, c.isDigit = false ∧ c ≠ '[' ∧ c ≠ ']') :
    listsIn (struct name [field f (debugBig x), field g (debugBig y)]) =
      [x.bytes.map (·.toNat), y.bytes.map (·.toNat)] := by
  have h1 : ∀ c ∈ name, c.isDigit = false ∧ c ≠ '[' ∧ c ≠ ']' := fun c hc => h c (by simp [hc])
  have h2 : ∀ c ∈ f, c.isDigit = false ∧ c ≠ '[' ∧ c ≠ ']' := fun c hc => h c (by simp [hc])
  have h3 : ∀ c ∈ g, c.isDigit = false ∧ c ≠ '[' ∧ c ≠ ']' := fun c hc => h c (by simp [hc])
  unfold listsIn struct field
  simp only [entries, List.append_assoc]
  rw [scan_words _ _ h1, scan_words _ _ (by decide), scan_words _ _ h2, scan_words _ _ (by decide), scan_big,
    scan_words _ _ (by decide), scan_words _ _ h3, scan_words _ _ (by decide), scan_big]
  have := scan_words [] [' ', '}'] (by decide) []
  simp only [List.append_nil] at this
  rw [this]
  rfl

end Verif.Model.Debug
