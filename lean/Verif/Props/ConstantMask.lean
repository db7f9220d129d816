import Verif.Props.Manger

/-! # C160: the mask of the padding is the same for all messages -/

namespace Verif.Props
open Verif Verif.Model.Big Verif.Model.Rsa Verif.Spec.Big

theorem dataBlock_drop {N : Nat} (h : List U8 → Vector U8 N) (label message : List U8) (k : Nat)
    (hk : message.length + 2 * N + 2 ≤ k) :
    (Spec.Oaep.dataBlock h label message k).drop (k - N - 1 - message.length) = message := by
  unfold Spec.Oaep.dataBlock
  rw [List.drop_append_of_le_length (by simp; omega), List.drop_of_length_le (by simp; omega), List.nil_append]

theorem dataBlock_take {N : Nat} (h : List U8 → Vector U8 N) (label m1 m2 : List U8) (k : Nat)
    (hl : m1.length = m2.length) (hk : m1.length + 2 * N + 2 ≤ k) :
    (Spec.Oaep.dataBlock h label m1 k).take (k - N - 1 - m1.length) =
      (Spec.Oaep.dataBlock h label m2 k).take (k - N - 1 - m1.length) := by
  unfold Spec.Oaep.dataBlock
  rw [← hl, List.take_left' (by simp; omega), List.take_left' (by simp; omega)]

theorem encode_drop {N : Nat} (hN : 0 < N) (h : List U8 → Vector U8 N) (seed label message : List U8) (k : Nat)
    (hs : seed.length = N) (hk : message.length + 2 * N + 2 ≤ k) :
    (Spec.Oaep.encode h seed label message k).drop (N + 1) =
      Spec.Oaep.xor (Spec.Oaep.dataBlock h label message k) (Spec.Oaep.mgf1 h seed (k - N - 1)) := by
  obtain ⟨_, h2⟩ := Model.Oaep.spec_lengths (h := h) hN seed label message k hs hk
  unfold Spec.Oaep.encode
  simp only [List.cons_append, List.drop_succ_cons]
  rw [List.drop_append_of_le_length (by rw [h2]), List.drop_of_length_le (by rw [h2]), List.nil_append]

theorem encode_last {N : Nat} (hN : 0 < N) (h : List U8 → Vector U8 N) (seed label message : List U8) (k : Nat)
    (hs : seed.length = N) (hk : message.length + 2 * N + 2 ≤ k) :
    message = Spec.Oaep.xor ((Spec.Oaep.encode h seed label message k).drop (k - message.length))
      ((List.replicate (N + 1) 0#8 ++ Spec.Oaep.mgf1 h seed (k - N - 1)).drop (k - message.length)) := by
  have h2 := Model.Oaep.length_mgf1 (h := h) hN seed (k - N - 1)
  have e1 : ∀ l : List U8, l.drop (k - message.length) = (l.drop (N + 1)).drop (k - N - 1 - message.length) := by
    intro l
    rw [List.drop_drop]
    congr 1
    omega
  rw [e1 (Spec.Oaep.encode h seed label message k), e1 (List.replicate (N + 1) 0#8 ++ _),
    encode_drop hN h seed label message k hs hk, List.drop_left' (by simp)]
  unfold Spec.Oaep.xor
  rw [List.drop_zipWith, dataBlock_drop _ _ _ _ hk]
  exact (Model.Oaep.xor_xor message _ (by rw [List.length_drop, h2]; omega)).symm

theorem encode_public {N : Nat} (hN : 0 < N) (h : List U8 → Vector U8 N) (seed label m1 m2 : List U8) (k : Nat)
    (hs : seed.length = N) (hl : m1.length = m2.length) (hk : m1.length + 2 * N + 2 ≤ k) :
    (Spec.Oaep.encode h seed label m1 k).take 1 = (Spec.Oaep.encode h seed label m2 k).take 1 ∧
    ((Spec.Oaep.encode h seed label m1 k).drop (N + 1)).take (k - N - 1 - m1.length) =
      ((Spec.Oaep.encode h seed label m2 k).drop (N + 1)).take (k - N - 1 - m1.length) := by
  refine ⟨by simp [Spec.Oaep.encode], ?_⟩
  rw [encode_drop hN h seed label m1 k hs hk, encode_drop hN h seed label m2 k hs (by omega)]
  unfold Spec.Oaep.xor
  rw [List.take_zipWith, List.take_zipWith, dataBlock_take _ _ _ _ _ hl hk]

theorem beVal_append' (a b : List U8) : beVal (a ++ b) = 256 ^ b.length * beVal a + beVal b := by
  unfold beVal
  rw [List.reverse_append, Model.Big.leVal_append, List.length_reverse]
  ring

/-- C160: for every length of the modulus there is one sequence of bytes, the same for all keys, labels and messages, that
masks the messages: a message is the last bytes of its encoding with it. Neither the seed nor the other bytes of the encoding
are needed. -/
theorem C160_mask (k : Nat) (hk32 : k < 2 ^ 32) :
    ∃ mask : List U8, ∀ label message em : List U8, label.length < 2 ^ 61 → message.length + 66 ≤ k →
      Model.Oaep.rsaPadding.encode label message k = .ok em →
      message = Spec.Oaep.xor (em.drop (k - message.length)) (mask.drop (k - message.length)) := by
  refine ⟨List.replicate (32 + 1) 0#8 ++ Spec.Oaep.mgf1 sha256Digest (List.replicate 32 42#8) (k - 32 - 1), ?_⟩
  intro label message em hl hk he
  rw [C53_rsa_padding label message k hk hk32 hl] at he
  obtain rfl := Except.ok.inj he
  exact encode_last (by omega) sha256Digest (List.replicate 32 42#8) label message k (by simp) hk

/-- C160: so two messages of the same length differ exactly as the last bytes of their encodings do. -/
theorem C160_difference (k : Nat) (hk32 : k < 2 ^ 32) (label label' m1 m2 em1 em2 : List U8) (hl : label.length < 2 ^ 61)
    (hl' : label'.length < 2 ^ 61) (hlen : m1.length = m2.length) (hk : m1.length + 66 ≤ k)
    (h1 : Model.Oaep.rsaPadding.encode label m1 k = .ok em1) (h2 : Model.Oaep.rsaPadding.encode label' m2 k = .ok em2) :
    Spec.Oaep.xor (em1.drop (k - m1.length)) (em2.drop (k - m1.length)) = Spec.Oaep.xor m1 m2 := by
  obtain ⟨mask, hm⟩ := C160_mask k hk32
  have e1 := hm label m1 em1 hl hk h1
  have e2 := hm label' m2 em2 hl' (by omega) h2
  have l1 : em1.length = k := by
    rw [C53_rsa_padding label m1 k hk hk32 hl] at h1
    obtain rfl := Except.ok.inj h1
    exact Model.Oaep.length_encode (by omega) _ _ _ _ (by simp) hk
  have l2 : em2.length = k := by
    rw [C53_rsa_padding label' m2 k (by omega) hk32 hl'] at h2
    obtain rfl := Except.ok.inj h2
    exact Model.Oaep.length_encode (by omega) _ _ _ _ (by simp) (by omega)
  rw [← hlen] at e2
  have lm : m1.length ≤ (mask.drop (k - m1.length)).length := by
    have := congrArg List.length e1
    unfold Spec.Oaep.xor at this
    rw [List.length_zipWith] at this
    omega
  generalize hM : mask.drop (k - m1.length) = M at *
  generalize ha : em1.drop (k - m1.length) = a at *
  generalize hb : em2.drop (k - m1.length) = b at *
  have la : a.length = m1.length := by rw [← ha, List.length_drop]; omega
  have lb : b.length = m1.length := by rw [← hb, List.length_drop]; omega
  rw [e1, e2]
  apply List.ext_getElem
  · unfold Spec.Oaep.xor
    simp only [List.length_zipWith]
    omega
  · intro i h3 h4
    simp only [Spec.Oaep.xor, List.getElem_zipWith]
    have key : ∀ x y z : U8, x ^^^ y = (x ^^^ z) ^^^ (y ^^^ z) := by
      intro x y z
      rw [BitVec.xor_comm y z, ← BitVec.xor_assoc, BitVec.xor_assoc x, BitVec.xor_self, BitVec.xor_zero]
    exact key _ _ _

/-- C160: and all bytes between the masked seed (bytes 1 to 32) and the message are the same for all messages of one length:
of the number that is encrypted only 32 bytes and the message are not public. -/
theorem C160_public (k : Nat) (hk32 : k < 2 ^ 32) (label m1 m2 em1 em2 : List U8) (hl : label.length < 2 ^ 61)
    (hlen : m1.length = m2.length) (hk : m1.length + 66 ≤ k) (h1 : Model.Oaep.rsaPadding.encode label m1 k = .ok em1)
    (h2 : Model.Oaep.rsaPadding.encode label m2 k = .ok em2) :
    em1.take 1 = em2.take 1 ∧
    (em1.drop 33).take (k - 33 - m1.length) = (em2.drop 33).take (k - 33 - m1.length) := by
  rw [C53_rsa_padding label m1 k hk hk32 hl] at h1
  rw [C53_rsa_padding label m2 k (by omega) hk32 hl] at h2
  obtain rfl := Except.ok.inj h1
  obtain rfl := Except.ok.inj h2
  exact encode_public (by omega) sha256Digest (List.replicate 32 42#8) label m1 m2 k (by simp) hlen hk

/-- C160: whoever learns the last bytes of what the textbook `decrypt` makes from a ciphertext of `encrypt_message` learns the
message, without any of the bytes before. The mask they need is the same for all keys whose modulus has `k` bytes. -/
theorem C160_last_bytes {cap : Nat → Nat} (hc : CapOk cap) (k : Nat) (hk32 : k < 2 ^ 32) :
    ∃ mask : List U8, ∀ p q e d : Nat, KeyPair p q e d → ((p * q).size - 1) / 8 + 1 = k →
      ∀ message ct : List U8, message.length + 66 ≤ k →
      encryptMessage cap ⟨big e, big (p * q)⟩ message Model.Oaep.rsaPadding = .ok ct →
      ∃ x, decrypt cap ⟨big d, big (p * q)⟩ (big (beVal ct)) = .ok (big x) ∧
        message = Spec.Oaep.xor (natToBE message.length (x % 256 ^ message.length)) (mask.drop (k - message.length)) := by
  obtain ⟨mask, hmask⟩ := C160_mask k hk32
  refine ⟨mask, fun p q e d key hpq message ct hm hct => ?_⟩
  subst hpq
  have hmod := key.modulus_size
  obtain ⟨em, h1, h2, h3⟩ := C53_encrypt_message hc e (p * q) hmod key.e_size message hm
  rw [h3] at hct
  obtain rfl := Except.ok.inj hct
  have hn : 2 ≤ p * q := Nat.le_trans key.p_prime.two_le (Nat.le_mul_of_pos_right p key.q_prime.pos)
  have hs : ∀ z, z < p * q → z.size ≤ 2 ^ 31 - 8 := fun z hz => Nat.le_trans (Nat.size_le_size hz.le) hmod
  refine ⟨beVal em, ?_, ?_⟩
  · rw [Model.Big.toBeBytes_val, Model.Big.val_big,
      (C50_decrypt hc _ d (p * q) hn hmod (hs _ (Nat.mod_lt _ (by omega))) key.d_size).1, ← Nat.pow_mod, ← Nat.pow_mul,
      pow_cancel p q e d key, Nat.mod_eq_of_lt h2]
  · have hl : em.length = ((p * q).size - 1) / 8 + 1 := by
      rw [h1]; exact Model.Oaep.length_encode (by omega) _ [] message _ (by simp) hm
    have h4 := hmask [] message em (by simp) hm (by rw [C53_rsa_padding [] message _ hm (by omega) (by simp), ← h1])
    have h5 : natToBE message.length (beVal em % 256 ^ message.length) =
        em.drop (((p * q).size - 1) / 8 + 1 - message.length) := by
      have hsplit := List.take_append_drop (((p * q).size - 1) / 8 + 1 - message.length) em
      have hdl : (em.drop (((p * q).size - 1) / 8 + 1 - message.length)).length = message.length := by
        rw [List.length_drop]; omega
      have hlt := Model.Oaep.beVal_lt (em.drop (((p * q).size - 1) / 8 + 1 - message.length))
      rw [hdl] at hlt
      conv_lhs => rw [← hsplit]
      rw [beVal_append', hdl, Nat.mul_add_mod, Nat.mod_eq_of_lt hlt]
      have h6 := natToBE_beVal (em.drop (((p * q).size - 1) / 8 + 1 - message.length))
      rw [hdl] at h6
      exact h6
    rw [h5]
    exact h4

/-- The padding with a modulus of 81 bytes and two messages of two bytes. -/
example : ∃ em1 em2, Model.Oaep.rsaPadding.encode [9#8] [5#8, 6#8] 81 = .ok em1 ∧
    Model.Oaep.rsaPadding.encode [] [4#8, 4#8] 81 = .ok em2 ∧
    Spec.Oaep.xor (em1.drop 79) (em2.drop 79) = [1#8, 2#8] := by
  refine ⟨_, _, C53_rsa_padding [9#8] [5#8, 6#8] 81 (by decide) (by decide) (by decide),
    C53_rsa_padding [] [4#8, 4#8] 81 (by decide) (by decide) (by decide), ?_⟩
  exact C160_difference 81 (by decide) [9#8] [] [5#8, 6#8] [4#8, 4#8] _ _ (by decide) (by decide) rfl (by decide)
    (C53_rsa_padding [9#8] [5#8, 6#8] 81 (by decide) (by decide) (by decide))
    (C53_rsa_padding [] [4#8, 4#8] 81 (by decide) (by decide) (by decide))
example : ∃ em1 em2, Model.Oaep.rsaPadding.encode [] [5#8, 6#8] 81 = .ok em1 ∧
    Model.Oaep.rsaPadding.encode [] [4#8, 4#8] 81 = .ok em2 ∧ (em1.drop 33).take 46 = (em2.drop 33).take 46 := by
  refine ⟨_, _, C53_rsa_padding [] [5#8, 6#8] 81 (by decide) (by decide) (by decide),
    C53_rsa_padding [] [4#8, 4#8] 81 (by decide) (by decide) (by decide), ?_⟩
  exact (C160_public 81 (by decide) [] [5#8, 6#8] [4#8, 4#8] _ _ (by decide) rfl (by decide)
    (C53_rsa_padding [] [5#8, 6#8] 81 (by decide) (by decide) (by decide))
    (C53_rsa_padding [] [4#8, 4#8] 81 (by decide) (by decide) (by decide))).2
/-- A message that was encrypted with a key of 648 bits. -/
example : ∃ (mask ct : List U8) (x : Nat),
    encryptMessage exactCap ⟨big 13, big ((2 ^ 521 - 1) * (2 ^ 127 - 1))⟩ [1#8] Model.Oaep.rsaPadding = .ok ct ∧
    decrypt exactCap ⟨big exampleD, big ((2 ^ 521 - 1) * (2 ^ 127 - 1))⟩ (big (beVal ct)) = .ok (big x) ∧
    [1#8] = Spec.Oaep.xor (natToBE 1 (x % 256)) (mask.drop 80) := by
  obtain ⟨mask, hm⟩ := C160_last_bytes exactCap_ok 81 (by decide)
  obtain ⟨ct, h, -⟩ := example_message
  obtain ⟨x, h1, h2⟩ := hm _ _ 13 exampleD example_key example_bytes [1#8] ct (by decide) h
  exact ⟨mask, ct, x, h, h1, h2⟩

end Verif.Props
