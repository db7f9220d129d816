import Verif.Props.Oaep

/-! # C112: `encrypt_message` and `decrypt_message` with any padding scheme

`PaddingScheme` is a public trait, so both functions are also used with schemes that are not in the crate. A scheme is
an arbitrary pair of functions that may panic. -/

namespace Verif.Props
open Verif Verif.Model.Big Verif.Model.Rsa Verif.Spec.Big

/-- C112: the scheme is asked, with an empty label, for an encoding of as many bytes as the modulus. If it panics so does
`encrypt_message`. A number that is not below the modulus fails the assertion, any other is encrypted, and the result
is written in the shortest way. -/
theorem C112_encrypt {ε : Type} {cap : Nat → Nat} (hc : CapOk cap) (e n : Nat) (hn : 2 ≤ n) (hsn : n.size ≤ 2 ^ 31 - 8)
    (hse : e.size ≤ 2 ^ 32 - 8) (scheme : PaddingScheme ε) (message : List U8)
    (hem : ∀ em, scheme.encode [] message ((n.size - 1) / 8 + 1) = .ok em → em.length < 2 ^ 29) :
    encryptMessage cap ⟨big e, big n⟩ message scheme =
      match scheme.encode [] message ((n.size - 1) / 8 + 1) with
      | .error panic => .error panic
      | .ok em => if beVal em < n then .ok (toBeBytes (big (beVal em ^ e % n))) else .error .assertion := by
  cases h : scheme.encode [] message ((n.size - 1) / 8 + 1) with
  | error p => exact Model.Oaep.encryptMessage_panics e n (by omega) hsn scheme message p h
  | ok em =>
    dsimp only
    by_cases hlt : beVal em < n
    · rw [if_pos hlt]
      exact Model.Oaep.encryptMessage_eq hc e n hn hsn hse scheme message em h hlt
    · rw [if_neg hlt]
      have hl : (big n).bytes.length < 2 ^ 29 := by rw [Model.Big.length_big]; omega
      have hlm : (big (beVal em)).bytes.length < 2 ^ 29 :=
        Nat.lt_of_le_of_lt (Model.Big.length_le_iff.2 (Model.Oaep.beVal_lt em)) (hem em h)
      have h0 : 0 < n.size := Nat.size_pos.2 (by omega)
      have e1 : subU n.size 1 = .ok (n.size - 1) := by unfold subU; rw [if_pos (by omega)]
      have e2 := Model.Big.cmp_norm (Model.Big.norm_big (beVal em)) (Model.Big.norm_big n) hlm hl
      rw [Model.Big.val_big, Model.Big.val_big] at e2
      have e3 : compare (beVal em) n ≠ .lt := fun h' => hlt (Nat.compare_eq_lt.1 h')
      unfold encryptMessage
      simp only [Model.Big.bitsUsed_norm (Model.Big.norm_big n) hl, Model.Big.val_big, e1, h, Model.Big.fromBeBytes_eq, e2,
        bind, Except.bind]
      rw [if_pos e3]
      rfl

/-- C112: with a zero modulus `encrypt_message` panics before the scheme is asked. -/
theorem C112_zero_modulus {ε : Type} {cap : Nat → Nat} (exponent : BigUint) (scheme : PaddingScheme ε)
    (message : List U8) : encryptMessage cap ⟨exponent, big 0⟩ message scheme = .error .overflow := by
  have e : bitsUsed (big 0) = .ok 0 := by rw [Model.Big.big_zero]; rfl
  unfold encryptMessage
  simp only [e, bind, Except.bind, subU]
  rfl

/-- C112: `decrypt_message` gives the scheme, with an empty label, the decrypted number written with as many bytes as the
ciphertext has; it panics if that many do not suffice, if the scheme panics, and if the scheme reports an error. -/
theorem C112_decrypt {ε : Type} {cap : Nat → Nat} (hc : CapOk cap) (d n : Nat) (hn : 2 ≤ n) (hsn : n.size ≤ 2 ^ 31 - 8)
    (hsd : d.size ≤ 2 ^ 32 - 8) (scheme : PaddingScheme ε) (ct : List U8) (hct : ct.length ≤ 2 ^ 28 - 1) :
    decryptMessage cap ⟨big d, big n⟩ ct scheme =
      if 256 ^ ct.length ≤ beVal ct ^ d % n then .error .overflow
      else
        match scheme.decode [] (natToBE ct.length (beVal ct ^ d % n)) ct.length with
        | .error panic => .error panic
        | .ok (.error _) => .error .unwrap
        | .ok (.ok message) => .ok message := by
  have hsz : (beVal ct).size ≤ 2 ^ 31 - 8 := by
    have h2 : (beVal ct).size ≤ 8 * ct.length := by
      rw [Nat.size_le, Nat.pow_mul]
      exact Model.Oaep.beVal_lt ct
    omega
  rw [Model.Oaep.decryptMessage_eq hc d n hn hsn hsd _ ct hsz]
  congr 1
  generalize scheme.decode [] (natToBE ct.length (beVal ct ^ d % n)) ct.length = r
  rcases r with p | ⟨err | m⟩ <;> rfl

/-- `decrypt_message` applied to what `encrypt_message` returned: the scheme gets the encoding back if its first
`k - ct.length` bytes are zero, without those bytes, and otherwise `decrypt_message` panics. -/
theorem C112_own_ciphertext {ε : Type} {cap : Nat → Nat} (hc : CapOk cap) (p q e d : Nat) (key : KeyPair p q e d)
    (scheme : PaddingScheme ε) (message em ct : List U8)
    (henc : scheme.encode [] message (((p * q).size - 1) / 8 + 1) = .ok em)
    (hlen : em.length = ((p * q).size - 1) / 8 + 1)
    (hct : encryptMessage cap ⟨big e, big (p * q)⟩ message scheme = .ok ct) :
    ct.length ≤ em.length ∧ decryptMessage cap ⟨big d, big (p * q)⟩ ct scheme =
      if em.take (em.length - ct.length) = List.replicate (em.length - ct.length) 0#8 then
        match scheme.decode [] (em.drop (em.length - ct.length)) ct.length with
        | .error panic => .error panic
        | .ok (.error _) => .error .unwrap
        | .ok (.ok message) => .ok message
      else .error .overflow := by
  have hn : 2 ≤ p * q := Nat.le_trans key.p_prime.two_le (Nat.le_mul_of_pos_right p key.q_prime.pos)
  have hsn := key.modulus_size
  have h1 := C112_encrypt hc e (p * q) hn hsn key.e_size scheme message (fun em' h' => by
    rw [henc] at h'; injection h' with h'; rw [← h', hlen]; omega)
  rw [henc, hct] at h1
  dsimp only at h1
  by_cases hlt : beVal em < p * q
  swap
  · rw [if_neg hlt] at h1; cases h1
  rw [if_pos hlt] at h1
  injection h1 with h1
  have hval : beVal ct = beVal em ^ e % (p * q) := by rw [h1, Model.Big.toBeBytes_val, Model.Big.val_big]
  have hle : ct.length ≤ em.length := by
    rw [h1, Model.Oaep.length_toBeBytes, Model.Big.length_le_iff, hlen]
    have := (Model.Oaep.nLen_bounds (p * q) (by omega)).2
    have := Nat.mod_lt (beVal em ^ e) (show 0 < p * q by omega)
    omega
  refine ⟨hle, ?_⟩
  rw [C112_decrypt hc d (p * q) hn hsn key.d_size scheme ct (by omega)]
  have hdec : beVal ct ^ d % (p * q) = beVal em := by
    rw [hval, ← Nat.pow_mod, ← Nat.pow_mul]
    exact Model.Rsa.rsa_correct p q e d _ key.p_prime key.q_prime key.distinct key.inverse hlt
  rw [hdec]
  -- split the encoding where the ciphertext ends
  obtain ⟨a, b, rfl, hb⟩ : ∃ a b, em = a ++ b ∧ b.length = ct.length :=
    ⟨em.take (em.length - ct.length), em.drop (em.length - ct.length), by simp, by simp; omega⟩
  have ha : (a ++ b).length - ct.length = a.length := by simp; omega
  rw [ha, List.take_left, List.drop_left]
  have hv : beVal (a ++ b) = beVal a * 256 ^ b.length + beVal b := by
    unfold beVal
    rw [List.reverse_append, leVal_append, List.length_reverse]
    ring
  have hbl := Model.Oaep.beVal_lt b
  by_cases hz : a = List.replicate a.length 0#8
  · have ha0 : beVal a = 0 := by
      have := Model.Oaep.beVal_zeros_append a.length []
      rw [List.append_nil, ← hz] at this
      rw [this]; rfl
    rw [if_pos hz, hv, ha0, Nat.zero_mul, Nat.zero_add, ← hb, if_neg (by omega), natToBE_beVal]
  · have ha0 : beVal a ≠ 0 := by
      intro h0
      apply hz
      have := natToBE_beVal a
      rw [h0] at this
      rw [← this, length_natToBE]
      have h2 := natToBE_beVal (List.replicate a.length 0#8)
      have h3 : beVal (List.replicate a.length 0#8) = 0 := by
        have := Model.Oaep.beVal_zeros_append a.length []
        rw [List.append_nil] at this
        rw [this]; rfl
      rw [h3, List.length_replicate] at h2
      exact h2
    rw [if_neg hz, if_pos]
    rw [hv, ← hb]
    have := Nat.mul_le_mul_right (256 ^ b.length) (Nat.one_le_iff_ne_zero.2 ha0)
    omega

/-- C112: so every scheme that decodes its own encodings makes messages round-trip, whenever the ciphertext has as
many bytes as the modulus. -/
theorem C112_roundtrip {ε : Type} {cap : Nat → Nat} (hc : CapOk cap) (p q e d : Nat) (key : KeyPair p q e d)
    (scheme : PaddingScheme ε) (message em ct : List U8)
    (henc : scheme.encode [] message (((p * q).size - 1) / 8 + 1) = .ok em)
    (hdec : scheme.decode [] em em.length = .ok (.ok message))
    (hlen : em.length = ((p * q).size - 1) / 8 + 1)
    (hct : encryptMessage cap ⟨big e, big (p * q)⟩ message scheme = .ok ct) (hfull : ct.length = em.length) :
    decryptMessage cap ⟨big d, big (p * q)⟩ ct scheme = .ok message := by
  rw [(C112_own_ciphertext hc p q e d key scheme message em ct henc hlen hct).2, hfull, Nat.sub_self, List.take_zero,
    List.drop_zero, List.replicate_zero, if_pos rfl, hdec]

/-! ### An instance: the scheme of the project's tests -/

/-- `NoPadding` of the tests, src/rsa/mod.rs:377-409: a zero byte, the message, and the length of the message as many
times as it takes. Writing past the end panics, and so does `encoded_message[1..=message_len]` when `message_len` is
the length of the encoding. -/
def noPadding : PaddingScheme Unit where
  encode _ message nLen :=
    if message.length + 1 ≤ nLen then
      .ok (0#8 :: message ++ List.replicate (nLen - 1 - message.length) (BitVec.ofNat 8 message.length))
    else .error .index
  decode _ encoded _ :=
    match encoded.getLast? with
    | none => .error .unwrap
    | some l =>
      if encoded.length < l.toNat then .ok (.error ())
      else if l.toNat < encoded.length then .ok (.ok ((encoded.drop 1).take l.toNat)) else .error .index

/-- With that scheme, messages of fewer than 256 bytes that leave two bytes of the modulus free round-trip, for every key
pair, if the ciphertext has as many bytes as the modulus. -/
theorem C112_test_scheme {cap : Nat → Nat} (hc : CapOk cap) (p q e d : Nat) (key : KeyPair p q e d)
    (message : List U8) (hm : message.length + 2 ≤ ((p * q).size - 1) / 8 + 1) (hm8 : message.length < 256) :
    ∃ ct, encryptMessage cap ⟨big e, big (p * q)⟩ message noPadding = .ok ct ∧
      (ct.length = ((p * q).size - 1) / 8 + 1 →
        decryptMessage cap ⟨big d, big (p * q)⟩ ct noPadding = .ok message) := by
  have hn : 2 ≤ p * q := Nat.le_trans key.p_prime.two_le (Nat.le_mul_of_pos_right p key.q_prime.pos)
  have hsn := key.modulus_size
  obtain ⟨em, hem⟩ : ∃ em, em = 0#8 :: message ++
      List.replicate (((p * q).size - 1) / 8 + 1 - 1 - message.length) (BitVec.ofNat 8 message.length) := ⟨_, rfl⟩
  have henc : noPadding.encode [] message (((p * q).size - 1) / 8 + 1) = .ok em := by
    unfold noPadding
    dsimp only
    rw [if_pos (by omega), hem]
  have hlen : em.length = ((p * q).size - 1) / 8 + 1 := by rw [hem]; simp; omega
  have hlt : beVal em < p * q := by
    have h1 := (Model.Oaep.nLen_bounds (p * q) (by omega)).1
    have h2 : beVal em < 256 ^ (((p * q).size - 1) / 8) := by
      rw [hem, List.cons_append, Model.Oaep.beVal_cons, show (0#8).toNat = 0 from rfl, Nat.zero_mul, Nat.zero_add]
      refine Nat.lt_of_lt_of_le (Model.Oaep.beVal_lt _) (Nat.pow_le_pow_right (by omega) ?_)
      simp; omega
    omega
  refine ⟨_, Model.Oaep.encryptMessage_eq hc e (p * q) hn hsn key.e_size noPadding message em henc hlt, fun hfull => ?_⟩
  refine C112_roundtrip hc p q e d key noPadding message em _ henc ?_ hlen
    (Model.Oaep.encryptMessage_eq hc e (p * q) hn hsn key.e_size noPadding message em henc hlt) (by rw [hfull, hlen])
  obtain ⟨j, hj⟩ : ∃ j, ((p * q).size - 1) / 8 + 1 - 1 - message.length = j + 1 :=
    ⟨((p * q).size - 1) / 8 + 1 - 1 - message.length - 1, by omega⟩
  rw [hj, List.replicate_succ', ← List.append_assoc] at hem
  have hlast : em.getLast? = some (BitVec.ofNat 8 message.length) := by rw [hem, List.getLast?_append]; simp
  have hto : (BitVec.ofNat 8 message.length).toNat = message.length := by
    rw [BitVec.toNat_ofNat]; exact Nat.mod_eq_of_lt (by omega)
  unfold noPadding
  dsimp only
  rw [hlast]
  dsimp only
  rw [hto, if_neg (by omega), if_pos (by omega), hem]
  simp

/-- A key pair of 24 bits. -/
theorem small_key : KeyPair 4093 4091 7 5977243 where
  p_prime := by norm_num
  q_prime := by norm_num
  distinct := by decide
  inverse := by unfold Nat.ModEq; decide +kernel
  modulus_size := by
    have : (4093 * 4091 : Nat).size ≤ 24 := by rw [Nat.size_le]; norm_num
    omega
  e_size := by
    have : (7 : Nat).size ≤ 3 := by rw [Nat.size_le]; norm_num
    omega
  d_size := by
    have : (5977243 : Nat).size ≤ 23 := by rw [Nat.size_le]; norm_num
    omega

/-- The hypotheses of `C112_roundtrip` are met: the one-byte message `48` (`H`) is encoded as `00 48 01` and its ciphertext
has three bytes. The empty message is encoded as `00 00 00` and its ciphertext is empty. -/
example : noPadding.encode [] [0x48#8] 3 = .ok [0#8, 0x48#8, 1#8] ∧
    noPadding.decode [] [0#8, 0x48#8, 1#8] 3 = .ok (.ok [0x48#8]) ∧ ((4093 * 4091 : Nat).size - 1) / 8 + 1 = 3 ∧
    encryptMessage exactCap ⟨⟨[7#8]⟩, ⟨[0x0f#8, 0x80#8, 0xff#8]⟩⟩ [0x48#8] noPadding = .ok [0xa0#8, 0x95#8, 0x0a#8] ∧
    encryptMessage exactCap ⟨⟨[7#8]⟩, ⟨[0x0f#8, 0x80#8, 0xff#8]⟩⟩ [] noPadding = .ok [] := by
  decide +kernel

/-- An encoding that is not below the modulus fails the assertion. -/
example : encryptMessage (ε := Unit) exactCap ⟨⟨[7#8]⟩, ⟨[0x0f#8, 0x80#8, 0xff#8]⟩⟩ []
    ⟨fun _ _ n => .ok (List.replicate n 255#8), fun _ _ _ => .ok (.ok [])⟩ = .error .assertion := by
  decide +kernel

/-- C112 applied: the scheme of the example, and OAEP with the key of C56. -/
example : encryptMessage exactCap ⟨big 7, big (4093 * 4091)⟩ [0x48#8] noPadding = .ok (toBeBytes (big (0x4801 ^ 7 % (4093 * 4091)))) ∧
    decryptMessage exactCap ⟨big 5, big (4093 * 4091)⟩ [4#8] noPadding = .error .overflow := by
  have hn : (4093 * 4091 : Nat).size ≤ 24 := Nat.size_le.2 (by norm_num)
  have h7 : (7 : Nat).size ≤ 24 := Nat.size_le.2 (by norm_num)
  have h5 : (5 : Nat).size ≤ 24 := Nat.size_le.2 (by norm_num)
  have hk : ((4093 * 4091 : Nat).size - 1) / 8 + 1 = 3 := by decide +kernel
  constructor
  · rw [C112_encrypt exactCap_ok 7 _ (by norm_num) (by omega) (by omega) noPadding [0x48#8] (by
      rw [hk]
      rintro em ⟨⟩
      decide), hk]
    rfl
  · rw [C112_decrypt exactCap_ok 5 _ (by norm_num) (by omega) (by omega) noPadding [4#8] (by decide),
      if_pos (by decide)]

end Verif.Props
