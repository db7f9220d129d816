import Verif.Props.Modes

/-! # C89: RC4 key streams repeat, seen from outside -/

namespace Verif.Props
open Verif Verif.Model

/-- The bytes of a message are combined with one key byte each, which does not depend on the message. -/
theorem rc4_bytes (m : List U8) (ks : Rc4.KeyStream) : (streamEncrypt Rc4.next ks m).result = .ok () ∧
    (streamEncrypt Rc4.next ks m).yielded.length = m.length ∧ ∀ i < m.length,
      (streamEncrypt Rc4.next ks m).yielded.getD i 0#8 = (Rc4.nextKey (rc4Step^[i] ks)).1 ^^^ m.getD i 0#8 := by
  induction m generalizing ks with
  | nil => exact ⟨rfl, rfl, fun i hi => absurd hi (Nat.not_lt_zero _)⟩
  | cons d ds ih =>
    obtain ⟨h1, h2, h3⟩ := ih (rc4Step ks)
    have e : streamEncrypt Rc4.next ks (d :: ds) = ⟨((Rc4.nextKey ks).1 ^^^ d) ::
        (streamEncrypt Rc4.next (rc4Step ks) ds).yielded, (streamEncrypt Rc4.next (rc4Step ks) ds).keys,
        (streamEncrypt Rc4.next (rc4Step ks) ds).result⟩ := rfl
    rw [e]
    refine ⟨h1, by simp [h2], fun i hi => ?_⟩
    cases i with
    | zero => rfl
    | succ i =>
      rw [Function.iterate_succ_apply]
      exact h3 i (Nat.lt_of_succ_lt_succ hi)

/-- C89: for every key there is a period: in every encryption, with a fresh key stream, of a message that is long enough, the
difference between ciphertext and message repeats from the first byte on. -/
theorem C89_rc4_repeats (key : List U8) (ks : Rc4.KeyStream) (hk : Rc4.new key = .ok ks) :
    ∃ p, 0 < p ∧ ∀ m : List U8, ∃ c, Rc4.encrypt ks m = .ok c ∧ c.length = m.length ∧
      ∀ i, i + p < m.length →
        c.getD (i + p) 0#8 ^^^ m.getD (i + p) 0#8 = c.getD i 0#8 ^^^ m.getD i 0#8 := by
  obtain ⟨p, hp, hper⟩ := C89_rc4_periodic key ks hk
  refine ⟨p, hp, fun m => ?_⟩
  obtain ⟨h1, h2, h3⟩ := rc4_bytes m ks
  refine ⟨(streamEncrypt Rc4.next ks m).yielded, ?_, h2, fun i hi => ?_⟩
  · simp only [Rc4.encrypt, h1]
  · rw [h3 _ hi, h3 i (by omega), Function.iterate_add_apply, hper, BitVec.xor_assoc, BitVec.xor_self, BitVec.xor_zero,
      BitVec.xor_assoc, BitVec.xor_self, BitVec.xor_zero]

/-- The key "Key" has such a period. -/
example : ∃ ks p, Rc4.new [75#8, 101#8, 121#8] = .ok ks ∧ 0 < p ∧ ∀ m : List U8, ∃ c, Rc4.encrypt ks m = .ok c ∧
    (p + 5 < m.length → c.getD (5 + p) 0#8 ^^^ m.getD (5 + p) 0#8 = c.getD 5 0#8 ^^^ m.getD 5 0#8) := by
  obtain ⟨p, hp, h⟩ := C89_rc4_repeats [75#8, 101#8, 121#8] _ rfl
  refine ⟨_, p, rfl, hp, fun m => ?_⟩
  obtain ⟨c, h1, -, h2⟩ := h m
  exact ⟨c, h1, fun hm => h2 5 (by omega)⟩

end Verif.Props
