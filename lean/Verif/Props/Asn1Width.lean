import Verif.Model.Asn1Width
import Verif.Props.Asn1

/-! # C117: ASN.1 parsing on 32-bit (and 16-bit) targets -/

namespace Verif.Props
open Verif Verif.Model.Asn1

/-- `w = 64` is the model used everywhere else. -/
theorem C117_width_64 (bytes : List U8) : tryFromW 64 bytes = tryFrom bytes := by
  have h : ∀ fuel, parseFromBytesW 64 fuel = parseFromBytes fuel := by
    intro fuel
    induction fuel with
    | zero => rfl
    | succ fuel ih =>
      funext bytes
      rw [parseFromBytesW, parseFromBytes, ih]
      rfl
  unfold tryFromW tryFrom
  rw [h]
  rcases parseFromBytes (bytes.length + 1) bytes with p | e | ⟨t, rest⟩ <;> rfl

/-- The error says that a length of `2 ^ w` or more is too long for the data, possibly inside sequences. -/
def DeclaresHuge (w : Nat) : Error → Prop
  | .tooLittleData _ length _ => 2 ^ w ≤ length
  | .inSequence e => DeclaresHuge w e
  | _ => False

/-- Either the two results are the same, or the wider one is an error because of a huge length. -/
def Same {α : Type} (w : Nat) (narrow wide : R (Except Error α)) : Prop :=
  narrow = wide ∨ ∃ e, wide = .ok (.error e) ∧ DeclaresHuge w e

theorem slice_length {xs l : List U8} {a b : Nat} (h : Model.Oaep.slice xs a b = .ok l) : l.length ≤ xs.length := by
  unfold Model.Oaep.slice at h
  split at h
  · cases h
    simp only [List.length_take, List.length_drop]
    omega
  · cases h

theorem lengthFieldW_cases (w : Nat) (hw : 7 ≤ w) (hw' : w ≤ 64) (bytes : List U8) :
    (∃ p, lengthFieldW w bytes = .error p ∧ lengthField bytes = .error p) ∨
    ∃ rest n, lengthFieldW w bytes = .ok (rest, n % 2 ^ w) ∧ lengthField bytes = .ok (rest, n) ∧
      rest.length ≤ bytes.length := by
  unfold lengthFieldW lengthField
  simp only [bind, Except.bind]
  rcases idx bytes 1 with p | b
  · exact Or.inl ⟨p, rfl, rfl⟩
  dsimp only
  by_cases hb : b &&& 0x80#8 ≠ 0#8
  · simp only [if_pos hb]
    rcases subU 16 (b &&& 0x7f#8).toNat with p | off
    · exact Or.inl ⟨p, rfl, rfl⟩
    dsimp only
    rcases Model.Oaep.slice bytes 2 (2 + (b &&& 0x7f#8).toNat) with p | l
    · exact Or.inl ⟨p, rfl, rfl⟩
    dsimp only
    rcases copyInto (Vector.replicate 16 0#8) off l with p | v
    · exact Or.inl ⟨p, rfl, rfl⟩
    dsimp only
    rcases hr : Model.Oaep.slice bytes (2 + (b &&& 0x7f#8).toNat) bytes.length with p | rest
    · exact Or.inl ⟨p, rfl, rfl⟩
    refine Or.inr ⟨rest, beVal v.toList % 2 ^ 64, ?_, rfl, slice_length hr⟩
    rw [Nat.mod_mod_of_dvd _ (Nat.pow_dvd_pow 2 hw')]
  · simp only [if_neg hb]
    rcases hr : Model.Oaep.slice bytes 2 bytes.length with p | rest
    · exact Or.inl ⟨p, rfl, rfl⟩
    refine Or.inr ⟨rest, b.toNat, ?_, rfl, slice_length hr⟩
    have hlt : b.toNat < 2 ^ 7 := by
      have key : ∀ n : Fin 256, BitVec.ofNat 8 n.val &&& 0x80#8 = 0#8 → n.val < 2 ^ 7 := by decide +kernel
      exact key ⟨b.toNat, b.isLt⟩ (by simpa using hb)
    rw [Nat.mod_eq_of_lt (Nat.lt_of_lt_of_le hlt (Nat.pow_le_pow_right (by decide) hw))]

theorem loop_same (w : Nat) (narrow wide : List U8 → R (Except Error (Asn1 × List U8))) (bound : Nat)
    (hs : ∀ l, l.length ≤ bound → Same w (narrow l) (wide l))
    (hrest : ∀ l t rest, wide l = .ok (.ok (t, rest)) → rest.length ≤ l.length)
    (fuel : Nat) (left : List U8) (acc : List Asn1) (hl : left.length ≤ bound) :
    Same w (sequenceLoop narrow fuel left acc) (sequenceLoop wide fuel left acc) := by
  induction fuel generalizing left acc with
  | zero => exact Or.inl rfl
  | succ fuel ih =>
    rw [sequenceLoop, sequenceLoop]
    by_cases h0 : left ≠ []
    · rw [if_pos h0, if_pos h0]
      simp only [bind, Except.bind]
      rcases hs left hl with he | ⟨e, he, hd⟩
      · rw [he]
        rcases hw : wide left with p | e | ⟨t, rest⟩
        · exact Or.inl rfl
        · exact Or.inl rfl
        · exact ih rest _ (Nat.le_trans (hrest left t rest hw) hl)
      · rw [he]
        exact Or.inr ⟨.inSequence e, rfl, hd⟩
    · rw [if_neg h0, if_neg h0]
      exact Or.inl rfl

theorem parse_same (w : Nat) (hw : 7 ≤ w) (hw' : w ≤ 64) (fuel : Nat) (bytes : List U8) (hlen : bytes.length < 2 ^ w) :
    Same w (parseFromBytesW w fuel bytes) (parseFromBytes fuel bytes) := by
  induction fuel generalizing bytes with
  | zero => exact Or.inl rfl
  | succ fuel ih =>
    rw [parseFromBytesW, parseFromBytes]
    by_cases h1 : bytes.length ≤ 1
    · rw [if_pos h1, if_pos h1]
      exact Or.inl rfl
    rw [if_neg h1, if_neg h1]
    simp only [bind, Except.bind]
    rcases idx bytes 0 with p | tag
    · exact Or.inl rfl
    dsimp only
    rcases lengthFieldW_cases w hw hw' bytes with ⟨p, e1, e2⟩ | ⟨rest, n, e1, e2, hrest⟩
    · rw [e1, e2]
      exact Or.inl rfl
    rw [e1, e2]
    dsimp only
    by_cases hn : n < 2 ^ w
    · rw [Nat.mod_eq_of_lt hn]
      by_cases h2 : n > rest.length
      · rw [if_pos h2, if_pos h2]
        exact Or.inl rfl
      rw [if_neg h2, if_neg h2]
      by_cases t1 : tag = 0x02#8
      · rw [if_pos t1, if_pos t1]; exact Or.inl rfl
      rw [if_neg t1, if_neg t1]
      by_cases t2 : tag = 0x04#8
      · rw [if_pos t2, if_pos t2]; exact Or.inl rfl
      rw [if_neg t2, if_neg t2]
      by_cases t3 : tag = 0x03#8
      · rw [if_pos t3, if_pos t3]; exact Or.inl rfl
      rw [if_neg t3, if_neg t3]
      by_cases t4 : tag = 0x05#8
      · rw [if_pos t4, if_pos t4]; exact Or.inl rfl
      rw [if_neg t4, if_neg t4]
      by_cases t5 : tag = 0x06#8
      · rw [if_pos t5, if_pos t5]; exact Or.inl rfl
      rw [if_neg t5, if_neg t5]
      by_cases t6 : tag = 0x30#8
      swap
      · rw [if_neg t6, if_neg t6]; exact Or.inl rfl
      rw [if_pos t6, if_pos t6]
      rcases hl : Model.Oaep.slice rest 0 n with p | left
      · exact Or.inl rfl
      dsimp only
      rcases loop_same w (parseFromBytesW w fuel) (parseFromBytes fuel) (2 ^ w - 1)
          (fun l h => ih l (by have := Nat.two_pow_pos w; omega))
          (fun l t r h => by
            obtain ⟨pre, rfl, _⟩ := Model.Asn1.parse_sound fuel l t r h
            simp)
          (left.length + 1) left [] (by have := slice_length hl; omega) with he | ⟨e, he, hd⟩
      · rw [he]
        rcases sequenceLoop (parseFromBytes fuel) (left.length + 1) left [] with p | e | l <;> exact Or.inl rfl
      · rw [he]
        exact Or.inr ⟨e, rfl, hd⟩
    · refine Or.inr ⟨.tooLittleData tag n rest.length, ?_, by unfold DeclaresHuge; omega⟩
      rw [if_pos (by omega)]
      rfl

/-- C117: on a target with `w`-bit `usize`, the parser does what it does on a 64-bit target, for every input (which has fewer
than `2 ^ w` bytes there), except that it can differ where the 64-bit parser reports a declared length of `2 ^ w` or more. -/
theorem C117_same (w : Nat) (hw : 7 ≤ w) (hw' : w ≤ 64) (bytes : List U8) (hlen : bytes.length < 2 ^ w) :
    tryFromW w bytes = tryFrom bytes ∨ ∃ e, tryFrom bytes = .ok (.error e) ∧ DeclaresHuge w e := by
  unfold tryFromW tryFrom
  simp only [bind, Except.bind]
  rcases parse_same w hw hw' (bytes.length + 1) bytes hlen with he | ⟨e, he, hd⟩
  · rw [he]
    rcases parseFromBytes (bytes.length + 1) bytes with p | e | ⟨t, rest⟩ <;> exact Or.inl rfl
  · rw [he]
    exact Or.inr ⟨e, rfl, hd⟩

/-- C117: so everything that a 64-bit target accepts is accepted on a 32-bit target, with the same result; and what panics on
one panics on the other in the same way. -/
theorem C117_accepted (bytes : List U8) (hlen : bytes.length < 2 ^ 32) :
    (∀ t, Spec.Asn1.Accepts bytes t → tryFromW 32 bytes = .ok (.ok t)) ∧
    ∀ p, tryFrom bytes = .error p → tryFromW 32 bytes = .error p := by
  constructor
  · intro t h
    have h := (Model.Asn1.tryFrom_ok_iff bytes t).2 h
    rcases C117_same 32 (by decide) (by decide) bytes hlen with he | ⟨e, he, _⟩
    · rw [he, h]
    · rw [h] at he
      cases he
  · intro p h
    rcases C117_same 32 (by decide) (by decide) bytes hlen with he | ⟨e, he, _⟩
    · rw [he, h]
    · rw [h] at he
      cases he

/-- C117: the converse is false: with a declared length of 2^32 + 1 a 32-bit target reads one byte, a 64-bit target reports
that the data is too short. -/
theorem C117_converse_false : tryFromW 32 [2#8, 0x85#8, 1#8, 0#8, 0#8, 0#8, 1#8, 7#8] = .ok (.ok (.integer [7#8])) ∧
    tryFrom [2#8, 0x85#8, 1#8, 0#8, 0#8, 0#8, 1#8, 7#8] = .ok (.error (.tooLittleData 2#8 (2 ^ 32 + 1) 1)) := ⟨rfl, rfl⟩

/-- Not vacuous: a nested value on both targets. -/
example : tryFromW 32 [0x30#8, 5#8, 5#8, 0#8, 2#8, 1#8, 7#8] = .ok (.ok (.sequence [.null, .integer [7#8]])) := rfl
example : tryFromW 32 [0x30#8, 5#8, 5#8, 0#8, 2#8, 1#8, 7#8] = tryFrom [0x30#8, 5#8, 5#8, 0#8, 2#8, 1#8, 7#8] ∨
    ∃ e, tryFrom [0x30#8, 5#8, 5#8, 0#8, 2#8, 1#8, 7#8] = .ok (.error e) ∧ DeclaresHuge 32 e :=
  C117_same 32 (by decide) (by decide) _ (by decide)

end Verif.Props
