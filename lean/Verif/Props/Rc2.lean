import Verif.Proof.Rc2
import Verif.Props.Block

/-! # Properties C17–C19: RC2 -/

namespace Verif.Props
open Verif Model Spec

/-- C17: for every RC2 object (any expanded key) and every block, decryption and encryption undo each
other. Neither can panic: the model functions are total. -/
theorem C17_rc2_inverse (k : Rc2.RC2) (b : Vector U8 8) :
    Rc2.decrypt k (Rc2.encrypt k b) = b ∧ Rc2.encrypt k (Rc2.decrypt k b) = b :=
  ⟨Rc2.decrypt_encrypt k b, Rc2.encrypt_decrypt k b⟩

/-- C17 with C01: any message encrypted block-wise under RC2 decrypts to itself. -/
theorem C17_rc2_ecb_roundtrip (k : Rc2.RC2) (plaintext : List U8) :
    (blockEncrypt (ecb 8) (Rc2.cipher k) () plaintext).result = .ok () ∧
    blockDecrypt (ecb 8) (Rc2.cipher k) () (blockEncrypt (ecb 8) (Rc2.cipher k) () plaintext).emitted
      = ⟨plaintext, .ok ()⟩ :=
  C01_ecb_roundtrip (by decide) (by decide) (Rc2.cipher k)
    (fun b => ⟨_, rfl, by show Except.ok _ = _; rw [(C17_rc2_inverse k b).1]⟩) plaintext

/-- C18: the constructor returns normally exactly for keys of 1 to 128 bytes and 1 to 1024 effective bits. -/
theorem C18_rc2_domain (key : List U8) (bits : U16) :
    (∃ k, Rc2.fromKey key bits = .ok k) ↔
      (1 ≤ key.length ∧ key.length ≤ 128) ∧ (1 ≤ bits.toNat ∧ bits.toNat ≤ 1024) := by
  constructor
  · rintro ⟨k, hk⟩
    apply Decidable.byContradiction
    intro h
    obtain ⟨e, he⟩ := Rc2.expandKey_panics key bits (by omega)
    simp [Rc2.fromKey, he, bind, Except.bind] at hk
  · rintro ⟨⟨h1, h2⟩, h3, h4⟩
    obtain ⟨k, _, _, he, _⟩ := Rc2.expandKey_spec key h1 h2 bits h3 h4
    exact ⟨⟨k⟩, by simp [Rc2.fromKey, he, bind, Except.bind]⟩

/-- C19: for every admissible key and effective length there are the key buffers of RFC 2268, and the
cipher is the RFC 2268 cipher with the key words taken from them. -/
theorem C19_rc2_spec (key : List U8) (bits : U16) (h1 : 1 ≤ key.length) (h2 : key.length ≤ 128)
    (h3 : 1 ≤ bits.toNat) (h4 : bits.toNat ≤ 1024) :
    ∃ k L1 L2, ∃ K : Nat → U16, Rc2.fromKey key bits = .ok k ∧
      Spec.Rc2.Expansion key bits.toNat L1 L2 ∧ (∀ i < 64, K i = Spec.Rc2.keyWord L2 i) ∧
      ∀ b : Vector U8 8, (Rc2.encrypt k b).toList = Spec.Rc2.ofRegs (Spec.Rc2.encRegs K (Spec.Rc2.toRegs b)) := by
  obtain ⟨k, L1, L2, he, hx, hw⟩ := Rc2.expandKey_spec key h1 h2 bits h3 h4
  refine ⟨⟨k⟩, L1, L2, Rc2.ktab k, by simp [Rc2.fromKey, he, bind, Except.bind], hx, fun i hi => ?_,
    Rc2.encrypt_spec ⟨k⟩⟩
  rw [Rc2.ktab_lt k hi, hw i hi]

/-- C19: the effective key length limits the key. If the RFC buffers of two keys agree on the last
`ceil(bits/8)` bytes, the first of these only on the low bits selected by the mask, the ciphers are equal. -/
theorem C19_rc2_effective_bytes (key1 key2 : List U8) (bits : U16)
    (hk1 : 1 ≤ key1.length ∧ key1.length ≤ 128) (hk2 : 1 ≤ key2.length ∧ key2.length ≤ 128)
    (hb : 1 ≤ bits.toNat ∧ bits.toNat ≤ 1024) (L1 L2 L1' L2' : Nat → U8)
    (h : Spec.Rc2.Expansion key1 bits.toNat L1 L2) (h' : Spec.Rc2.Expansion key2 bits.toNat L1' L2')
    (hmask : L1 (128 - Spec.Rc2.T8 bits.toNat) &&& Spec.Rc2.TM bits.toNat =
      L1' (128 - Spec.Rc2.T8 bits.toNat) &&& Spec.Rc2.TM bits.toNat)
    (hkeep : ∀ i, 128 - Spec.Rc2.T8 bits.toNat < i → i < 128 → L1 i = L1' i) :
    Rc2.fromKey key1 bits = Rc2.fromKey key2 bits :=
  Rc2.fromKey_congr hk1 hk2 hb h h' hmask hkeep

/-- The bytes at `128 - T8 .. 127` as one number, the first byte masked. -/
def effective (bits : Nat) (L : Nat → U8) : Nat :=
  leVal ((List.range (Spec.Rc2.T8 bits - 1)).map fun i => L (127 - i)) +
    256 ^ (Spec.Rc2.T8 bits - 1) * (L (128 - Spec.Rc2.T8 bits) &&& Spec.Rc2.TM bits).toNat

theorem effective_lt (bits : Nat) (hb : 1 ≤ bits) (hb' : bits ≤ 1024) (L : Nat → U8) :
    effective bits L < 2 ^ bits := by
  have h1 := leVal_lt ((List.range (Spec.Rc2.T8 bits - 1)).map fun i => L (127 - i))
  simp only [List.length_map, List.length_range] at h1
  have h2 : (L (128 - Spec.Rc2.T8 bits) &&& Spec.Rc2.TM bits).toNat < 2 ^ (8 + bits - 8 * Spec.Rc2.T8 bits) := by
    rw [BitVec.toNat_and]
    refine Nat.lt_of_le_of_lt Nat.and_le_right ?_
    rw [Spec.Rc2.TM, BitVec.toNat_ofNat]
    exact Nat.lt_of_le_of_lt (Nat.mod_le _ _) (Nat.mod_lt _ (Nat.two_pow_pos _))
  have h3 : 2 ^ bits = 256 ^ (Spec.Rc2.T8 bits - 1) * 2 ^ (8 + bits - 8 * Spec.Rc2.T8 bits) := by
    rw [show (256 : Nat) = 2 ^ 8 by decide, ← Nat.pow_mul, ← Nat.pow_add]
    congr 1
    unfold Spec.Rc2.T8
    omega
  rw [h3]
  unfold effective
  calc _ < 256 ^ (Spec.Rc2.T8 bits - 1) + 256 ^ (Spec.Rc2.T8 bits - 1) *
        (L (128 - Spec.Rc2.T8 bits) &&& Spec.Rc2.TM bits).toNat := Nat.add_lt_add_right h1 _
    _ = 256 ^ (Spec.Rc2.T8 bits - 1) * ((L (128 - Spec.Rc2.T8 bits) &&& Spec.Rc2.TM bits).toNat + 1) := by
        rw [Nat.mul_add, Nat.mul_one, Nat.add_comm]
    _ ≤ _ := Nat.mul_le_mul_left _ h2

/-- C19: with `bits` effective bits there are at most `2^bits` different RC2 ciphers, whatever keys of
whatever lengths are used: every key's cipher is one of a list of `2^bits`. -/
theorem C19_rc2_at_most_2_pow_bits (bits : U16) (hb : 1 ≤ bits.toNat ∧ bits.toNat ≤ 1024) :
    ∃ f : Fin (2 ^ bits.toNat) → Option Rc2.RC2, ∀ key : List U8, 1 ≤ key.length → key.length ≤ 128 →
      ∃ k i, Rc2.fromKey key bits = .ok k ∧ f i = some k := by
  -- `Hit n k`: the cipher `k` comes from some key whose effective bits are the number `n`
  let Hit : Nat → Rc2.RC2 → Prop := fun n k => ∃ key L1 L2, 1 ≤ key.length ∧ key.length ≤ 128 ∧
    Spec.Rc2.Expansion key bits.toNat L1 L2 ∧ Rc2.fromKey key bits = .ok k ∧ effective bits.toNat L1 = n
  have huniq : ∀ n k k', Hit n k → Hit n k' → k = k' := by
    rintro n k k' ⟨key, L1, L2, a1, a2, a3, a4, a5⟩ ⟨key', L1', L2', b1, b2, b3, b4, b5⟩
    have heq : effective bits.toNat L1 = effective bits.toNat L1' := a5.trans b5.symm
    have l1 := leVal_lt ((List.range (Spec.Rc2.T8 bits.toNat - 1)).map fun i => L1 (127 - i))
    have l2 := leVal_lt ((List.range (Spec.Rc2.T8 bits.toNat - 1)).map fun i => L1' (127 - i))
    simp only [List.length_map, List.length_range] at l1 l2
    have hpos : 0 < 256 ^ (Spec.Rc2.T8 bits.toNat - 1) := Nat.pow_pos (by decide)
    unfold effective at heq
    have hmod := congrArg (· % 256 ^ (Spec.Rc2.T8 bits.toNat - 1)) heq
    have hdiv := congrArg (· / 256 ^ (Spec.Rc2.T8 bits.toNat - 1)) heq
    simp only [Nat.add_mul_mod_self_left, Nat.mod_eq_of_lt l1, Nat.mod_eq_of_lt l2] at hmod
    simp only [Nat.add_mul_div_left _ _ hpos, Nat.div_eq_of_lt l1, Nat.div_eq_of_lt l2, Nat.zero_add] at hdiv
    have hlist := leVal_inj (by simp) hmod
    have := C19_rc2_effective_bytes key key' bits ⟨a1, a2⟩ ⟨b1, b2⟩ hb L1 L2 L1' L2' a3 b3
      (BitVec.eq_of_toNat_eq hdiv) (by
        intro i hi hi'
        have hT8 : Spec.Rc2.T8 bits.toNat ≤ 128 := by unfold Spec.Rc2.T8; omega
        have h1 := List.map_inj_left.1 hlist (127 - i) (by simp; omega)
        rwa [show 127 - (127 - i) = i by omega] at h1)
    rw [a4, b4] at this
    cases this; rfl
  classical
  refine ⟨fun i => if h : ∃ k, Hit i.val k then some h.choose else none, fun key h1 h2 => ?_⟩
  obtain ⟨k, L1, L2, he, hx, hw⟩ := Rc2.expandKey_spec key h1 h2 bits hb.1 hb.2
  have hf : Rc2.fromKey key bits = .ok ⟨k⟩ := by simp [Rc2.fromKey, he, bind, Except.bind]
  have hhit : Hit (effective bits.toNat L1) ⟨k⟩ := ⟨key, L1, L2, h1, h2, hx, hf, rfl⟩
  refine ⟨⟨k⟩, ⟨effective bits.toNat L1, effective_lt _ hb.1 hb.2 L1⟩, hf, ?_⟩
  have hex : ∃ k, Hit (effective bits.toNat L1) k := ⟨_, hhit⟩
  refine (dif_pos hex).trans ?_
  rw [huniq _ _ _ hex.choose_spec hhit]

/-- First test vector of RFC 2268 §5: key of 8 zero bytes, 63 effective bits. -/
example : (Rc2.fromKey (List.replicate 8 0) 63).map (fun k => Rc2.encrypt k (Vector.replicate 8 0)) =
    .ok #v[0xeb, 0xb7, 0x73, 0xf9, 0x93, 0x27, 0x8e, 0xff] := by decide +kernel
example : Rc2.fromKey [] 63 = .error .overflow := by decide +kernel

/-- C19 applied: a key of 8 bytes with 63 bits, and two keys that agree in what is kept of them. -/
example : ∃ k L1 L2, ∃ K : Nat → U16, Rc2.fromKey (List.replicate 8 0) 63 = .ok k ∧
    Spec.Rc2.Expansion (List.replicate 8 0) 63 L1 L2 ∧ (∀ i < 64, K i = Spec.Rc2.keyWord L2 i) ∧
    ∀ b : Vector U8 8, (Rc2.encrypt k b).toList = Spec.Rc2.ofRegs (Spec.Rc2.encRegs K (Spec.Rc2.toRegs b)) :=
  C19_rc2_spec (List.replicate 8 0) 63 (by decide) (by decide) (by decide) (by decide)

end Verif.Props
