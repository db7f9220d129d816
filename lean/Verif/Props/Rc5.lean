import Verif.Proof.Rc5
import Verif.Props.Block

/-! # Properties C14–C16: RC5 (the constants are in `Verif.Props.Rc5Const`) -/

namespace Verif.Props
open Verif Model Spec

/-- C14: for every key of 1..=255 bytes and every number of rounds, decrypting undoes encrypting and
encrypting undoes decrypting, on every block, without panic. -/
theorem C14_rc5_inverse (key : List U8) (h1 : 1 ≤ key.length) (h2 : key.length ≤ 255) (rounds : U8) :
    ∃ k, Rc5.new key rounds = .ok k ∧ ∀ b : Vector U8 8,
      (∃ c, Rc5.encrypt k b = .ok c ∧ Rc5.decrypt k c = .ok b) ∧
      (∃ p, Rc5.decrypt k b = .ok p ∧ Rc5.encrypt k p = .ok b) := by
  obtain ⟨k, hk, hr, hs⟩ := Rc5.new_spec key (List.length_pos_iff.1 h1) (by omega) rounds
  have hw : Rc5.Wf k := ⟨_, hr ▸ hs⟩
  exact ⟨k, hk, fun b => ⟨Rc5.dec_enc hw b, Rc5.enc_dec hw b⟩⟩

/-- C14 with C01: any message encrypted block-wise under RC5 decrypts to itself. -/
theorem C14_rc5_ecb_roundtrip (key : List U8) (h1 : 1 ≤ key.length) (h2 : key.length ≤ 255) (rounds : U8)
    (plaintext : List U8) : ∃ k, Rc5.new key rounds = .ok k ∧
      (blockEncrypt (ecb 8) (Rc5.cipher k) () plaintext).result = .ok () ∧
      blockDecrypt (ecb 8) (Rc5.cipher k) () (blockEncrypt (ecb 8) (Rc5.cipher k) () plaintext).emitted
        = ⟨plaintext, .ok ()⟩ := by
  obtain ⟨k, hk, h⟩ := C14_rc5_inverse key h1 h2 rounds
  exact ⟨k, hk, C01_ecb_roundtrip (by decide) (by decide) (Rc5.cipher k) (fun b => (h b).1) plaintext⟩

/-- C15: the constructor returns normally exactly for keys of 1 to 255 bytes. -/
theorem C15_rc5_domain (key : List U8) (rounds : U8) :
    (∃ k, Rc5.new key rounds = .ok k) ↔ 1 ≤ key.length ∧ key.length ≤ 255 := by
  constructor
  · rintro ⟨k, hk⟩
    constructor
    · apply Nat.pos_of_ne_zero
      intro h0
      rw [List.length_eq_zero_iff.1 h0, Rc5.new_nil] at hk
      cases hk
    · apply Nat.le_of_not_lt
      intro hl
      rw [Rc5.new_long key (by omega)] at hk
      cases hk
  · rintro ⟨h1, h2⟩
    obtain ⟨k, hk, _⟩ := Rc5.new_spec key (List.length_pos_iff.1 h1) (by omega) rounds
    exact ⟨k, hk⟩

/-- C16: the block transformation is RC5-32/r/b. -/
theorem C16_rc5_spec (key : List U8) (h1 : 1 ≤ key.length) (h2 : key.length ≤ 255) (rounds : U8) :
    ∃ k, Rc5.new key rounds = .ok k ∧ ∀ b : Vector U8 8,
      ∃ c, Rc5.encrypt k b = .ok c ∧ c.toList = Spec.Rc5.encBlock key rounds.toNat b := by
  obtain ⟨k, hk, hr, hs⟩ := Rc5.new_spec key (List.length_pos_iff.1 h1) (by omega) rounds
  refine ⟨k, hk, fun b => ?_⟩
  obtain ⟨c, hc, hl⟩ := Rc5.encrypt_spec (k := k) (hr ▸ hs) b
  refine ⟨c, hc, ?_⟩
  rw [hl, hr, leU32_eq, leU32_eq]
  rfl

/-- First test vector of the RC5 paper (also in the crate's tests). -/
example : (do let k ← Rc5.new (List.replicate 16 0) 12; Rc5.encrypt32 k 0 0) =
    .ok (0xEEDBA521, 0x6D8F4B15) := by decide +kernel
example : (do let k ← Rc5.new [0x91, 0x5F, 0x46, 0x19, 0xBE, 0x41, 0xB2, 0x51, 0x63, 0x55, 0xA5, 0x01, 0x10,
    0xA9, 0xCE, 0x91] 12; Rc5.encrypt32 k 0xEEDBA521 0x6D8F4B15) = .ok (0xAC13C0F7, 0x52892B5B) := by
  decide +kernel
example : Rc5.new [] 12 = .error .index := by decide +kernel

/-- C14 applied. -/
example : ∃ k, Rc5.new [1, 2, 3] 12 = .ok k ∧ ∀ b : Vector U8 8, (∃ c, Rc5.encrypt k b = .ok c ∧ Rc5.decrypt k c = .ok b) ∧
    (∃ p, Rc5.decrypt k b = .ok p ∧ Rc5.encrypt k p = .ok b) := C14_rc5_inverse _ (by decide) (by decide) _
example : ∃ k, Rc5.new [1, 2, 3] 12 = .ok k ∧ blockDecrypt (ecb 8) (Rc5.cipher k) ()
    (blockEncrypt (ecb 8) (Rc5.cipher k) () [9, 8, 7]).emitted = ⟨[9, 8, 7], .ok ()⟩ := by
  obtain ⟨k, h1, -, h2⟩ := C14_rc5_ecb_roundtrip [1, 2, 3] (by decide) (by decide) 12 [9, 8, 7]
  exact ⟨k, h1, h2⟩

end Verif.Props
