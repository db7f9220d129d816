import Verif.Proof.OaepTrace
import Verif.Props.Manger

/-! # C153: what the time of OAEP decoding reveals -/

namespace Verif.Props
open Verif Verif.Model.Big Verif.Model.Rsa Verif.Spec.Big
open _root_.Verif.Model.OaepTrace (Count T decodeT decryptT)
open _root_.Verif.Model.Ending (decryptEnding beforeUnwrap)

/-- C153: the counting functions are `decode` and `decrypt_message` if the counts are forgotten. -/
theorem C153_same {N : Nat} (hash : List U8 → R (Vector U8 N)) (label em : List U8) (k : Nat) (cap : Nat → Nat)
    (self : RsaEncryption) (ct : List U8) :
    (decodeT hash label em k).1 = Model.Oaep.decode hash label em k ∧
    (decryptT cap self ct).1 = decryptMessage cap self ct Model.Oaep.rsaPadding := by
  refine ⟨Model.OaepTrace.fst_decodeT hash label em k, ?_⟩
  unfold decryptT decryptMessage
  simp only [Model.OaepTrace.fst_bind, Model.OaepTrace.fst_free, Model.OaepTrace.fst_decodeT]
  rfl

/-- C153: what is done in a call of `decode` that does not panic, for every hash function, label and input. If the first
byte is not zero nothing is hashed. Otherwise the number of hash computations only depends on the length `k`, and the number
of bytes looked at in the search for the separator is 0 if the label is wrong and otherwise tells how long the message is. -/
theorem C153_counts {N : Nat} (hN : 0 < N) (hash : List U8 → R (Vector U8 N)) (label em : List U8) (k : Nat)
    (r : Except Model.Oaep.DecodeError (List U8)) (c : Count) (h : decodeT hash label em k = (.ok r, c)) :
    (r = .error .firstByteNotZero ∧ c = ⟨0, 0⟩) ∨
    (c.hashes = 2 + (k - N - 1 + N - 1) / N ∧
      ((r = .error .wrongLabel ∧ c.scanned = 0) ∨
       (r = .error .missingSeparator ∧ c.scanned = k - 2 * N - 1) ∨
       (r = .error .separatorNotOne ∧ 1 ≤ c.scanned ∧ c.scanned ≤ k - 2 * N - 1) ∨
       (∃ m, r = .ok m ∧ 1 ≤ c.scanned ∧ c.scanned + m.length = k - 2 * N - 1))) :=
  Model.OaepTrace.decodeT_count hN h

/-- C153: for `RsaPadding`: decoding the encoding of RFC 8017 of a message, with any seed, looks at `k - 65` bytes less the
length of the message. -/
theorem C153_rsa_padding (label seed message : List U8) (k : Nat) (hs : seed.length = 32) (hm : message.length + 66 ≤ k)
    (hk32 : k < 2 ^ 32) (hlabel : label.length < 2 ^ 61) :
    decodeT Model.Sha.sha256 label (Spec.Oaep.encode sha256Digest seed label message k) k =
      (.ok (.ok message), ⟨2 + (k - 2) / 32, k - 65 - message.length⟩) := by
  have hl := Model.Oaep.length_encode (h := sha256Digest) (by omega) seed label message k hs hm
  have hd := (C54_decode_iff Model.Sha.sha256 sha256Digest _ sha256_computes (by omega) label
    (Spec.Oaep.encode sha256Digest seed label message k) message k hl (by omega) hlabel (sha256_limits k hk32).2.1
    (sha256_limits k hk32).2.2 (sha256_limits k hk32).1).2 ⟨seed, hs, by omega, rfl⟩
  rw [← (C153_same Model.Sha.sha256 label _ k exactCap ⟨big 0, big 0⟩ []).1] at hd
  rcases hx : decodeT Model.Sha.sha256 label (Spec.Oaep.encode sha256Digest seed label message k) k with ⟨x, c⟩
  rw [hx] at hd
  cases hd
  rcases C153_counts (by omega) _ _ _ _ _ _ hx with ⟨h, _⟩ | ⟨h1, ⟨h, _⟩ | ⟨h, _⟩ | ⟨h, _⟩ | ⟨m, h, h2, h3⟩⟩
  · cases h
  · cases h
  · cases h
  · cases h
  · cases h
    obtain ⟨a, b⟩ := c
    simp only at h1 h2 h3
    congr 2 <;> omega

/-- C153: so for two encodings of the same length the counts are equal exactly if the messages are equally long. -/
theorem C153_length (label seed seed' message message' : List U8) (k : Nat) (hs : seed.length = 32) (hs' : seed'.length = 32)
    (hm : message.length + 66 ≤ k) (hm' : message'.length + 66 ≤ k) (hk32 : k < 2 ^ 32) (hlabel : label.length < 2 ^ 61) :
    (decodeT Model.Sha.sha256 label (Spec.Oaep.encode sha256Digest seed label message k) k).2 =
      (decodeT Model.Sha.sha256 label (Spec.Oaep.encode sha256Digest seed' label message' k) k).2 ↔
    message.length = message'.length := by
  rw [C153_rsa_padding label seed message k hs hm hk32 hlabel, C153_rsa_padding label seed' message' k hs' hm' hk32 hlabel]
  simp only [Count.mk.injEq, true_and]
  omega

/-! ## Manger's attack without the panic messages -/

theorem snd_bind_zero {α β : Type} (x : T α) (f : α → T β) (h : ∀ a, (f a).2.hashes = 0) :
    (x >>= f).2.hashes = x.2.hashes := by
  rcases x with ⟨e | a, c⟩
  · rfl
  · change c.hashes + (f a).2.hashes = c.hashes
    rw [h, Nat.add_zero]

theorem decodeT_hashes {N : Nat} (hash : List U8 → R (Vector U8 N)) (label : List U8) (k : Nat) (b : U8) (rest : List U8) :
    (decodeT hash label (b :: rest) k).2.hashes ≠ 0 ↔ b = 0#8 := by
  unfold decodeT
  by_cases hb : b = 0#8
  · refine ⟨fun _ => hb, fun _ => ?_⟩
    subst hb
    change (0 + (T.bind (hash label, ⟨1, 0⟩) _).2.hashes) ≠ 0
    rcases hash label with e | d
    · change 0 + 1 ≠ 0
      omega
    · change 0 + (1 + _) ≠ 0
      omega
  · refine ⟨fun h => ?_, fun h => absurd h hb⟩
    exfalso
    apply h
    change 0 + (if b ≠ 0#8 then (pure (.error .firstByteNotZero) : T (Except Model.Oaep.DecodeError (List U8)))
      else _).2.hashes = 0
    rw [if_pos hb]
    rfl

theorem decryptT_hashes {cap : Nat → Nat} (hc : CapOk cap) (d n : Nat) (hn : 2 ≤ n) (hsn : n.size ≤ 2 ^ 31 - 8)
    (hsd : d.size ≤ 2 ^ 32 - 8) (ct : List U8) (hct : (beVal ct).size ≤ 2 ^ 31 - 8) (hlt : beVal ct ^ d % n < 256 ^ ct.length) :
    (decryptT cap ⟨big d, big n⟩ ct).2.hashes =
      (decodeT Model.Sha.sha256 [] (natToBE ct.length (beVal ct ^ d % n)) ct.length).2.hashes := by
  have e1 := powMod_ok hc (beVal ct) d n hn hsn hct hsd
  have hfree : ∀ {α β : Type} (a : α) (f : α → T β),
      (Model.OaepTrace.free (.ok a) >>= f).2.hashes = (f a).2.hashes := by
    intro α β a f
    change 0 + _ = _
    rw [Nat.zero_add]
  unfold decryptT decrypt
  rw [fromBeBytes_eq, hfree]
  simp only [e1]
  rw [hfree]
  simp only [List.length_replicate, Model.Oaep.length_toBeBytes]
  generalize beVal ct ^ d % n = m at hlt
  have hl : (big m).bytes.length ≤ ct.length := by rw [length_le_iff]; omega
  have e2 : subU ct.length (big m).bytes.length = .ok (ct.length - (big m).bytes.length) := by
    unfold subU; rw [if_pos hl]
  rw [e2, hfree, Model.Oaep.zeros_toBeBytes _ _ hl, length_natToBE]
  exact snd_bind_zero _ _ fun a => rfl

/-- C153: with a ciphertext of the length of the modulus `decrypt_message` hashes something exactly if the decrypted number,
written with the length of the modulus, starts with a zero byte: the bit that C126 takes from the panic message. -/
theorem C153_hashes {cap : Nat → Nat} (hc : CapOk cap) (d n : Nat) (hn : 2 ≤ n) (hsn : n.size ≤ 2 ^ 31 - 8)
    (hsd : d.size ≤ 2 ^ 32 - 8) (ct : List U8) (hct : ct.length = (n.size - 1) / 8 + 1) :
    (decryptT cap ⟨big d, big n⟩ ct).2.hashes ≠ 0 ↔ beVal ct ^ d % n < 256 ^ ((n.size - 1) / 8) := by
  have hsz : (beVal ct).size ≤ 2 ^ 31 - 8 := by
    have h2 : (beVal ct).size ≤ 8 * ct.length := by
      rw [Nat.size_le, Nat.pow_mul]
      exact Model.Oaep.beVal_lt ct
    omega
  have hv : beVal ct ^ d % n < n := Nat.mod_lt _ (by omega)
  have hn8 : n < 256 ^ ((n.size - 1) / 8 + 1) := by
    rw [show (256 : Nat) = 2 ^ 8 by decide, ← Nat.pow_mul]
    exact Nat.lt_of_lt_of_le (Nat.lt_size_self n) (Nat.pow_le_pow_right (by decide) (by omega))
  have hlt : beVal ct ^ d % n < 256 ^ ct.length := by rw [hct]; omega
  have hb := beforeUnwrap_eq hc d n hn hsn hsd ct hsz hlt
  have ht := C126_text hc d n hn hsn hsd ct hct
  rw [decryptT_hashes hc d n hn hsn hsd ct hsz hlt]
  obtain ⟨b, rest, hbr⟩ : ∃ b rest, natToBE ct.length (beVal ct ^ d % n) = b :: rest := by
    cases h : natToBE ct.length (beVal ct ^ d % n) with
    | nil => have := congrArg List.length h; rw [length_natToBE, hct] at this; simp at this
    | cons b rest => exact ⟨b, rest, rfl⟩
  rw [hbr, decodeT_hashes]
  have hd := decode_says Model.Sha.sha256 [] ct.length b rest
  rw [← hbr] at hd
  change Model.Oaep.rsaPadding.decode [] _ _ = _ ↔ _ at hd
  rw [← hb] at hd
  have hs : startsWithZero (decryptEnding cap ⟨big d, big n⟩ ct) = true ↔
      ¬ beforeUnwrap cap ⟨big d, big n⟩ ct = .ok (.error .firstByteNotZero) := by
    unfold startsWithZero decryptEnding
    rcases beforeUnwrap cap ⟨big d, big n⟩ ct with p | e | m
    · simp
    · cases e <;> decide +kernel
    · simp
  rw [← decide_eq_true_iff (p := beVal ct ^ d % n < _), ← ht, hs, hd, not_not]

/-- The one bit that the attacker takes from the time: whether anything was hashed. -/
def hashedSomething (cap : Nat → Nat) (self : RsaEncryption) (ct : List U8) : Bool := (decryptT cap self ct).2.hashes ≠ 0

/-- C153: the attack of C126 needs no panic messages: it is enough to see from the time whether anything was hashed. -/
theorem C153_attack {cap : Nat → Nat} (hc : CapOk cap) (p q e d : Nat) (key : KeyPair p q e d)
    (hB : 2 * 256 ^ (((p * q).size - 1) / 8) ≤ p * q) (ct : List U8)
    (hct : beVal ct ^ d % (p * q) < 256 ^ (((p * q).size - 1) / 8)) :
    (attack (p * q) e ct).finds (hashedSomething cap ⟨big d, big (p * q)⟩) = beVal ct ^ d % (p * q) ∧
    (attack (p * q) e ct).questions (hashedSomething cap ⟨big d, big (p * q)⟩) ≤ 24 * (((p * q).size - 1) / 8) + 512 := by
  have hn : 2 ≤ p * q := Nat.le_trans key.p_prime.two_le (Nat.le_mul_of_pos_right p key.q_prime.pos)
  have hx := pow_cancel p q e d key
  have hd0 : d ≠ 0 := by
    rintro rfl
    have := hx 0
    rw [Nat.mul_zero, Nat.pow_zero, Nat.zero_mod, Nat.mod_eq_of_lt (by omega)] at this
    omega
  have he0 : e ≠ 0 := by
    rintro rfl
    have := hx 0
    rw [Nat.zero_mul, Nat.pow_zero, Nat.zero_mod, Nat.mod_eq_of_lt (by omega)] at this
    omega
  have hn8 : p * q < 256 ^ (((p * q).size - 1) / 8 + 1) := by
    rw [show (256 : Nat) = 2 ^ 8 by decide, ← Nat.pow_mul]
    exact Nat.lt_of_lt_of_le (Nat.lt_size_self _) (Nat.pow_le_pow_right (by decide) (by omega))
  refine attack_spec _ (p * q) e ct _ hn hB hct ?_ ?_
  · constructor
    · intro h
      rw [Nat.pow_mod, h, Nat.zero_pow (Nat.pos_of_ne_zero hd0), Nat.zero_mod]
    · intro h
      rw [← hx, Nat.mul_comm, Nat.pow_mul, Nat.pow_mod, h, Nat.zero_pow (Nat.pos_of_ne_zero he0), Nat.zero_mod]
  · intro f
    have hlt : beVal ct * f ^ e % (p * q) < p * q := Nat.mod_lt _ (by omega)
    unfold hashedSomething
    rw [decide_eq_decide, C153_hashes hc d (p * q) hn key.modulus_size key.d_size _ (by unfold blinded; rw [length_natToBE])]
    unfold blinded
    rw [beVal_natToBE, Nat.mod_eq_of_lt (by omega : beVal ct * f ^ e % (p * q) < 256 ^ (((p * q).size - 1) / 8 + 1)),
      ← Nat.pow_mod, Nat.mul_pow, ← Nat.pow_mul, Nat.mul_mod, hx, Nat.mul_comm (beVal ct ^ d % (p * q)), Nat.mod_mul_mod]

/-- Not vacuous: the key of `n = 3233` and the ciphertext 2790 of 65; messages of ten bytes and a key of 128 bytes; and two
decryptions run by the kernel, one of a number below 256 and one of a larger one. -/
example : (attack (61 * 53) 17 [0x0A#8, 0xE6#8]).finds (hashedSomething exactCap ⟨big 2753, big (61 * 53)⟩) = 65 :=
  (C153_attack exactCap_ok 61 53 17 2753 textbook_key (by decide +kernel) [0x0A#8, 0xE6#8] (by decide +kernel)).1.trans
    (by decide +kernel)
example (label seed message : List U8) (hs : seed.length = 32) (hm : message.length = 10) (hl : label.length < 2 ^ 61) :
    (decodeT Model.Sha.sha256 label (Spec.Oaep.encode sha256Digest seed label message 128) 128).2 = ⟨5, 53⟩ := by
  rw [C153_rsa_padding label seed message 128 hs (by omega) (by omega) hl, hm]
example : (decryptT exactCap ⟨big 2753, big 3233⟩ [0x0A#8, 0xE6#8]).2.hashes = 1 ∧
    (decryptT exactCap ⟨big 2753, big 3233⟩ [0x0A#8, 0xE7#8]).2.hashes = 0 := by decide +kernel

end Verif.Props
