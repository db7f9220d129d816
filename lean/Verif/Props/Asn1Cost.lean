import Verif.Proof.Asn1Cost

/-! # C130: what parsing ASN.1 uses -/

namespace Verif.Props
open Verif Verif.Model.Asn1 Verif.Spec.Asn1

/-- C130: the parser that counts is the parser. -/
theorem C130_same (bytes : List U8) : (tryFromC bytes).1 = tryFrom bytes := by
  unfold tryFromC tryFrom
  simp only [parseC_same]
  rcases parseFromBytes (bytes.length + 1) bytes with p | e | ⟨t, r⟩
  · rfl
  · rfl
  · simp only [bind, Except.bind, pure, Except.pure]

/-- C130: whether an input is accepted, rejected or makes the parser panic, there are no more calls of the parsing function
than half of the bytes and one, and no more of them are active at the same time; … -/
theorem C130_calls (bytes : List U8) : 2 * (tryFromC bytes).2.calls ≤ bytes.length + 2 ∧
    (tryFromC bytes).2.depth ≤ (tryFromC bytes).2.calls := by
  have h := parse_bounds (bytes.length + 1) bytes
  unfold Bounds at h
  unfold tryFromC
  simp only
  split at h
  · obtain ⟨k, h1, _, h2, h3⟩ := h
    exact ⟨by omega, h3.depth⟩
  · rcases h with ⟨h1, h2⟩ | ⟨_, h2⟩
    · exact ⟨h1, h2.depth⟩
    · rw [h2]
      exact ⟨by simp [Cost.leaf], by simp [Cost.leaf]⟩

/-- C130: … the bytes that are copied, and those in copies that are kept at the same time, are at most the square of half of
the length of the input. -/
theorem C130_copies (bytes : List U8) : 4 * (tryFromC bytes).2.copied ≤ bytes.length ^ 2 ∧
    4 * (tryFromC bytes).2.held ≤ bytes.length ^ 2 := by
  have h := parse_bounds (bytes.length + 1) bytes
  unfold Bounds at h
  unfold tryFromC
  simp only [pow_two]
  split at h
  · obtain ⟨k, h1, _, h2, h3⟩ := h
    have h3 := h3.mono (m := bytes.length) (by omega)
    exact ⟨h3.copied, h3.held⟩
  · rcases h with ⟨h1, h2⟩ | ⟨_, h2⟩
    · exact ⟨h2.copied, h2.held⟩
    · rw [h2]
      exact ⟨by simp [Cost.leaf], by simp [Cost.leaf]⟩

/-- C130: for every input that is accepted there is exactly one call for each value in it, and as many at the same time as
values are inside each other. -/
theorem C130_calls_exact (bytes : List U8) (t : Asn1) (h : tryFrom bytes = .ok (.ok t)) :
    (tryFromC bytes).2.calls = values t ∧ (tryFromC bytes).2.depth = depth t := by
  have := parse_calls (bytes.length + 1) bytes t [] ((tryFrom_ok_iff _ _).1 h) (Nat.lt_succ_self _)
  rwa [List.append_nil] at this

/-- C130: for DER encodings the bytes that are copied are exactly those of the contents of all values, and those kept at the
same time are exactly those of the sequences on the worst path. -/
theorem C130_copies_exact (t : Asn1) (h : (der t).length < 2 ^ 64) :
    (tryFromC (der t)).2.copied = contents t ∧ (tryFromC (der t)).2.held = nested t := by
  have := parse_copied ((der t).length + 1) t [] h (Nat.lt_succ_self _)
  rwa [List.append_nil] at this

theorem held_nest (k : Nat) (hk : k < 2 ^ 60) (fuel : Nat) (hf : (der (nest k)).length < fuel) :
    k * (k + 1) ≤ (parseC fuel (der (nest k))).2.held ∧ k + 1 ≤ (parseC fuel (der (nest k))).2.depth ∧
      2 * (k + 1) ≤ (der (nest k)).length := by
  induction k generalizing fuel with
  | zero =>
    obtain ⟨fuel, rfl⟩ : ∃ f, fuel = f + 1 := ⟨fuel - 1, by omega⟩
    have h : der (nest 0) = [0x05#8, 0#8] := by decide +kernel
    rw [h]
    exact ⟨by simp, by simp [parseC, lengthField, idx, Cost.leaf, Model.Oaep.slice, bind, Except.bind], by simp⟩
  | succ k ih =>
    obtain ⟨fuel, rfl⟩ : ∃ f, fuel = f + 1 := ⟨fuel - 1, by omega⟩
    have hlen := length_der_nest k (by omega)
    have hlf := derLength_ok (der (nest k)).length (by omega)
    have hd : der (nest (k + 1)) = 0x30#8 :: derLength (der (nest k)).length ++ (der (nest k) ++ []) := by
      simp only [nest, der, derAll, tlv, List.append_nil]
    have hp := lf_pos hlf
    rw [hd] at hf ⊢
    simp only [List.length_append, List.length_cons, List.length_nil] at hf ⊢
    obtain ⟨i1, i2, i3⟩ := ih (by omega) fuel (by omega)
    have hres : (parseC fuel (der (nest k))).1 = .ok (.ok (nest k, [])) := by
      rw [parseC_same]
      have := parse_complete fuel (der (nest k)) (nest k) [] (der_accepts _ (by omega)) (by omega)
      rwa [List.append_nil] at this
    have hne : der (nest k) ≠ [] := fun h => by rw [h] at i3; simp at i3
    have hloop : (sequenceLoopC (parseC fuel) ((der (nest k)).length + 1) (der (nest k)) [] ⟨0, 0, 0, 0⟩).2 =
        (⟨0, 0, 0, 0⟩ : Cost).after (parseC fuel (der (nest k))).2 := by
      obtain ⟨m, hm⟩ : ∃ m, (der (nest k)).length = m + 1 := ⟨(der (nest k)).length - 1, by omega⟩
      rw [hm]
      unfold sequenceLoopC
      rw [if_pos hne]
      rcases hc : parseC fuel (der (nest k)) with ⟨r, d⟩
      rw [hc] at hres
      simp only at hres
      subst hres
      simp only
      unfold sequenceLoopC
      simp
    rw [parseC_seq _ _ _ _ hlf, hloop]
    simp only [Cost.after, Cost.around]
    refine ⟨?_, by omega, by omega⟩
    have e : (k + 1) * (k + 1 + 1) = k * (k + 1) + 2 * (k + 1) := by ring
    rw [e]
    omega

/-- C130: the square is real: files with `k` sequences inside each other have at most ten bytes for each of them, and the
parser accepts them, with `k + 1` calls active at the same time, which together keep more than `k ^ 2` bytes of copies. -/
theorem C130_quadratic (k : Nat) (hk : k < 2 ^ 60) : ∃ bytes t, bytes.length ≤ 10 * k + 2 ∧ tryFrom bytes = .ok (.ok t) ∧
    k + 1 ≤ (tryFromC bytes).2.depth ∧ k ^ 2 + k ≤ (tryFromC bytes).2.held := by
  have h := length_der_nest k hk
  obtain ⟨h1, h2, _⟩ := held_nest k hk _ (Nat.lt_succ_self _)
  refine ⟨der (nest k), nest k, h, (tryFrom_ok_iff _ _).2 (der_accepts _ (by omega)), h2, ?_⟩
  rw [show k ^ 2 + k = k * (k + 1) by ring]
  exact h1

/-- C130: a file of less than 164 kB that makes the parser keep 256 MiB at the same time. -/
theorem C130_small_file : ∃ bytes t, bytes.length < 164 * 1000 ∧ tryFrom bytes = .ok (.ok t) ∧
    2 ^ 28 < (tryFromC bytes).2.held := by
  obtain ⟨b, t, h1, h2, _, h3⟩ := C130_quadratic (2 ^ 14) (by norm_num)
  exact ⟨b, t, by omega, h2, by omega⟩

/-- An accepted, a rejected and a panicking input: a sequence in a sequence; the same with an unknown tag in the place of the
null; the same with a length that is cut off. The contents of the outer sequence (7 bytes) and of the inner one (2 bytes)
are kept at the same time, the integer before that is copied as well. -/
example : tryFromC [0x30#8, 7#8, 2#8, 1#8, 9#8, 0x30#8, 2#8, 5#8, 0#8] =
      (.ok (.ok (.sequence [.integer [9#8], .sequence [.null]])), ⟨4, 3, 10, 9⟩) ∧
    tryFromC [0x30#8, 7#8, 2#8, 1#8, 9#8, 0x30#8, 2#8, 7#8, 0#8] =
      (.ok (.error (.inSequence (.inSequence (.unknownTag 7#8)))), ⟨4, 3, 10, 9⟩) ∧
    tryFromC [0x30#8, 7#8, 2#8, 1#8, 9#8, 0x30#8, 2#8, 5#8, 0x81#8] = (.error .index, ⟨4, 3, 10, 9⟩) := by
  refine ⟨?_, ?_, ?_⟩ <;> rfl

/-- The exact theorems applied to this input. -/
example : (tryFromC [0x30#8, 7#8, 2#8, 1#8, 9#8, 0x30#8, 2#8, 5#8, 0#8]).2.calls =
      values (.sequence [.integer [9#8], .sequence [.null]]) ∧
    (tryFromC (der (.sequence [.integer [9#8], .sequence [.null]]))).2.copied =
      contents (.sequence [.integer [9#8], .sequence [.null]]) :=
  ⟨(C130_calls_exact _ _ rfl).1, (C130_copies_exact _ (by decide +kernel)).1⟩

/-- The tree of this example. -/
example : values (.sequence [.integer [9#8], .sequence [.null]]) = 4 ∧
    depth (.sequence [.integer [9#8], .sequence [.null]]) = 3 ∧
    contents (.sequence [.integer [9#8], .sequence [.null]]) = 10 ∧
    nested (.sequence [.integer [9#8], .sequence [.null]]) = 9 ∧
    der (.sequence [.integer [9#8], .sequence [.null]]) = [0x30#8, 7#8, 2#8, 1#8, 9#8, 0x30#8, 2#8, 5#8, 0#8] := by
  refine ⟨?_, ?_, ?_, ?_, ?_⟩ <;> decide +kernel

end Verif.Props
