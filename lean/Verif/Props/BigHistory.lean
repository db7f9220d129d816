import Verif.Props.Big
import Verif.Spec.BigHistory
import Verif.Proof.ShaPad

/-! # C111: every program that calculates with `BigUint`s sees what natural numbers give -/

namespace Verif.Props
open Verif Verif.Spec.Big Verif.Spec.BigHistory
open _root_.Verif.Model.Big (BigUint)

/-- The variables of the model hold the normalised forms of the numbers, which have at most 2^31 bits. -/
structure Holds (env : Nat → BigUint) (nums : Nat → Nat) : Prop where
  eq : ∀ i, env i = big (nums i)
  small : ∀ i, (nums i).size ≤ 2 ^ 31

theorem Holds.store {env : Nat → BigUint} {nums nums' : Nat → Nat} {seen : List Seen} {d n : Nat} (h : Holds env nums)
    (hs : store nums d n = some (nums', seen)) : seen = [] ∧ Holds (assign env d (big n)) nums' := by
  unfold Spec.BigHistory.store at hs
  split at hs
  next hn =>
    cases hs
    refine ⟨rfl, ⟨fun i => ?_, fun i => ?_⟩⟩
    · unfold assign; split
      · rfl
      · exact h.eq i
    · unfold assign; split
      · exact hn
      · exact h.small i
  next => cases hs

theorem testBit_withBit (n i : Nat) (b : Bool) (j : Nat) :
    (withBit n i b).testBit j = if j = i then b else n.testBit j := by
  unfold withBit
  split
  next h =>
    split
    next hj => rw [hj, h]
    next => rfl
  next h =>
    rw [Nat.testBit_xor, Nat.testBit_two_pow]
    by_cases hj : j = i
    · subst hj
      rw [if_pos rfl]
      revert h
      cases n.testBit j <;> cases b <;> simp
    · rw [if_neg hj, decide_eq_false (fun h' => hj h'.symm), Bool.xor_false]

theorem update_big (n i : Nat) (b : Bool) (hi : i < 8 * byteLength n)
    (hl : byteLength (withBit n i b) = byteLength n) :
    Model.Big.update (big n) i b = .ok (big (withBit n i b)) := by
  have hlen := Model.Big.length_big n
  obtain ⟨y, h1, h2, h3⟩ := Model.Big.update_ok (big n) i b (by rw [hlen]; unfold byteLength at hi; omega)
  rw [h1]
  congr 1
  have hv : Spec.Big.val y = withBit n i b := by
    apply Nat.eq_of_testBit_eq
    intro j
    rw [h3, testBit_withBit, Model.Big.val_big]
  -- same value and same length as the normalised form
  have hlen' := Model.Big.length_big (withBit n i b)
  have e : ∀ l m : List U8, l.length = m.length → leVal l = leVal m → l = m := by
    intro l m hlm hv
    rw [← natToLE_leVal l, ← natToLE_leVal m, hlm, hv]
  have : y.bytes = (big (withBit n i b)).bytes := by
    apply e
    · rw [h2, hlen, hlen']; unfold byteLength at hl; omega
    · show Spec.Big.val y = Spec.Big.val (big (withBit n i b))
      rw [hv, Model.Big.val_big]
  cases y
  simp only at this
  rw [this]

/-- One call. -/
theorem step_calc {cap : Nat → Nat} (hc : CapOk cap) (env : Nat → BigUint) (nums nums' : Nat → Nat) (seen : List Seen)
    (c : Call) (h : Holds env nums) (hs : calcStep nums c = some (nums', seen)) :
    ∃ env', step cap env c = .ok (env', seen) ∧ Holds env' nums' := by
  have hlen : ∀ i, (big (nums i)).bytes.length ≤ 2 ^ 28 := fun i => by
    rw [Model.Big.length_big]; have := h.small i; omega
  have hlen' : ∀ i, (big (nums i)).bytes.length < 2 ^ 29 := fun i => by have := hlen i; omega
  cases c with
  | fromBeBytes d l =>
    obtain ⟨rfl, h'⟩ := h.store hs
    exact ⟨_, by simp only [step, Model.Big.fromBeBytes_eq, bind, Except.bind, pure, Except.pure], h'⟩
  | fromLeBytes d l =>
    obtain ⟨rfl, h'⟩ := h.store hs
    exact ⟨_, by simp only [step, Model.Big.fromLeBytes_eq, pure, Except.pure], h'⟩
  | fromU128 d v =>
    obtain ⟨rfl, h'⟩ := h.store hs
    exact ⟨_, by simp only [step, Model.Big.fromU128_eq, bind, Except.bind, pure, Except.pure], h'⟩
  | addByte d a b =>
    obtain ⟨rfl, h'⟩ := h.store hs
    exact ⟨_, by simp only [step, h.eq, Model.Big.addByte_eq, Model.Big.val_big, bind, Except.bind, pure, Except.pure], h'⟩
  | add d a b =>
    obtain ⟨rfl, h'⟩ := h.store hs
    exact ⟨_, by simp only [step, h.eq, Model.Big.add_eq, Model.Big.val_big, bind, Except.bind, pure, Except.pure], h'⟩
  | sub d a b =>
    simp only [calcStep] at hs
    split at hs
    next hle =>
      obtain ⟨rfl, h'⟩ := h.store hs
      exact ⟨_, by simp only [step, h.eq, Model.Big.sub, Model.Big.subAssign_ge hc (hlen a) hle, bind, Except.bind, pure,
        Except.pure], h'⟩
    next => cases hs
  | rem d a b =>
    simp only [calcStep] at hs
    split at hs
    next hne =>
      obtain ⟨rfl, h'⟩ := h.store hs
      exact ⟨_, by simp only [step, h.eq, Model.Big.rem_eq hc _ _ (Nat.pos_of_ne_zero hne) (hlen a) (hlen' b), bind,
        Except.bind, pure, Except.pure], h'⟩
    next => cases hs
  | shl d a k =>
    simp only [calcStep] at hs
    split at hs
    next hk =>
      obtain ⟨rfl, h'⟩ := h.store hs
      exact ⟨_, by simp only [step, h.eq, C43_shl_partial _ _ hk, pure, Except.pure], h'⟩
    next => cases hs
  | shr d a k =>
    simp only [calcStep] at hs
    split at hs
    next hk =>
      obtain ⟨rfl, h'⟩ := h.store hs
      exact ⟨_, by simp only [step, h.eq, C43_shr_partial _ _ hk, bind, Except.bind, pure, Except.pure], h'⟩
    next => cases hs
  | update d a i b =>
    simp only [calcStep] at hs
    split at hs
    next hk =>
      obtain ⟨rfl, h'⟩ := h.store hs
      exact ⟨_, by simp only [step, h.eq, update_big _ _ _ hk.1 hk.2, bind, Except.bind, pure, Except.pure], h'⟩
    next => cases hs
  | bitsUsed a =>
    cases hs
    exact ⟨_, by simp only [step, h.eq, Model.Big.bitsUsed_norm (Model.Big.norm_big _) (hlen' a), Model.Big.val_big, bind,
      Except.bind, pure, Except.pure], h⟩
  | isSet a i =>
    cases hs
    exact ⟨_, by simp only [step, h.eq, Model.Big.isSet_norm (Model.Big.norm_big _) (hlen' a), Model.Big.val_big, bind,
      Except.bind, pure, Except.pure], h⟩
  | cmp a b =>
    cases hs
    exact ⟨_, by simp only [step, h.eq, Model.Big.cmp_norm (Model.Big.norm_big _) (Model.Big.norm_big _) (hlen' a)
      (hlen' b), Model.Big.val_big, bind, Except.bind, pure, Except.pure], h⟩
  | eq a b =>
    cases hs
    refine ⟨_, ?_, h⟩
    have : (env a = env b) ↔ nums a = nums b := by
      rw [h.eq, h.eq]; exact ⟨Model.Big.big_inj, congrArg big⟩
    simp only [step, pure, Except.pure, this]
  | toBeBytes a =>
    cases hs
    refine ⟨_, ?_, h⟩
    have : Model.Big.toBeBytes (big (nums a)) = natToBE (byteLength (nums a)) (nums a) := by
      have e := natToBE_beVal (Model.Big.toBeBytes (big (nums a)))
      rw [Model.Big.toBeBytes_val, Model.Big.val_big] at e
      rw [← e]
      congr 1
      unfold Model.Big.toBeBytes byteLength
      rw [List.length_reverse, Model.Big.length_big]
    simp only [step, h.eq, this, pure, Except.pure]
  | asU128 a =>
    cases hs
    refine ⟨_, ?_, h⟩
    simp only [step, h.eq, C36_as_u128, bind, Except.bind, pure, Except.pure]
    split <;> rfl

/-- C111: if a program stays within what the operations are meant for, then run on the crate it never panics and sees
exactly what the same calculation on natural numbers gives. -/
theorem C111_programs {cap : Nat → Nat} (hc : CapOk cap) (program : List Call) (seen : List Seen)
    (h : calculate (fun _ => 0) program = some seen) : run cap (fun _ => big 0) program = .ok seen := by
  have key : ∀ (program : List Call) (env : Nat → BigUint) (nums : Nat → Nat) (seen : List Seen), Holds env nums →
      calculate nums program = some seen → run cap env program = .ok seen := by
    intro program
    induction program with
    | nil => intro env nums seen _ h; cases h; rfl
    | cons c cs ih =>
      intro env nums seen hh h
      rw [calculate] at h
      cases hs : calcStep nums c with
      | none => simp only [hs, bind, Option.bind] at h; cases h
      | some r =>
        obtain ⟨nums', s⟩ := r
        simp only [hs, bind, Option.bind] at h
        cases hr : calculate nums' cs with
        | none => simp only [hr] at h; cases h
        | some seen' =>
          simp only [hr, pure] at h
          injection h with h
          obtain ⟨env', h1, h2⟩ := step_calc hc env nums nums' s c hh hs
          rw [run]
          simp only [h1, ih env' nums' seen' h2 hr, bind, Except.bind, pure, Except.pure, h]
  exact key program _ _ seen ⟨fun _ => rfl, fun _ => by simp⟩ h

/-- The hypotheses are met: `((0x0100 - 1) << 9) % 7`, with a digit changed and everything looked at. -/
def sampleProgram : List Call :=
  [.fromBeBytes 0 [0#8, 1#8, 0#8], .fromU128 1 1#128, .sub 2 0 1, .shl 3 2 9, .fromLeBytes 4 [7#8, 0#8], .rem 5 3 4,
   .update 6 3 9 false, .shr 7 6 3, .addByte 8 7 255#8, .add 9 8 8, .bitsUsed 3, .isSet 6 9, .cmp 3 6, .eq 0 4,
   .toBeBytes 3, .asU128 5, .asU128 9]

def sampleSeen : List Seen := [.number 17, .bool false, .ordering .gt, .bool false, .bytes [1#8, 0xfe#8, 0#8],
  .u128 (some 3#128), .u128 (some 33022#128)]

example : calculate (fun _ => 0) sampleProgram = some sampleSeen := by decide +kernel

example : run exactCap (fun _ => ⟨[]⟩) sampleProgram = .ok sampleSeen := by decide +kernel
example : run exactCap (fun _ => big 0) sampleProgram = .ok sampleSeen :=
  C111_programs exactCap_ok _ _ (by decide +kernel)

end Verif.Props
