import Verif.Proof.RsaExact
import Verif.Props.Oaep

/-! # C91–C94: RSA, exactly

`Spec.Big.val` is the number that a `BigUint` stands for, `Spec.Big.big n` the normalised `BigUint` of `n`. -/

namespace Verif.Props
open Verif Verif.Model.Big Verif.Model.Rsa Verif.Spec.Big

/-! ## C91 -/

theorem eq_of_beVal {a b : List U8} (hl : a.length = b.length) (h : beVal a = beVal b) : a = b := by
  rw [← natToBE_beVal a, ← natToBE_beVal b, hl, h]

/-- C91: what decryption makes of the ciphertext of a message: with `k` the number of bytes of the modulus and `em` the
encoding of the message, it returns a message `m'` exactly if `em` without its first `k - |ciphertext|` bytes is an OAEP
encoding of `m'` and these bytes are zero. If the ciphertext is not shortened, that means `m' = message`. -/
theorem C91_own_ciphertext_iff {cap : Nat → Nat} (hc : CapOk cap) (p q e d : Nat) (key : KeyPair p q e d)
    (message ct em : List U8) (k : Nat) (hk : k = ((p * q).size - 1) / 8 + 1) (hm : message.length + 66 ≤ k)
    (hem : em = Spec.Oaep.encode sha256Digest (List.replicate 32 42#8) [] message k)
    (hct : encryptMessage cap ⟨big e, big (p * q)⟩ message Model.Oaep.rsaPadding = .ok ct) (m' : List U8) :
    decryptMessage cap ⟨big d, big (p * q)⟩ ct Model.Oaep.rsaPadding = .ok m' ↔
      m'.length + 66 ≤ ct.length ∧ ∃ seed, seed.length = 32 ∧
        em = List.replicate (k - ct.length) 0#8 ++ Spec.Oaep.encode sha256Digest seed [] m' ct.length := by
  subst hk
  have hn : 2 ≤ p * q := Nat.le_trans key.p_prime.two_le (Nat.le_mul_of_pos_right p key.q_prime.pos)
  have hlen := C56_ciphertext_length hc e (p * q) key.modulus_size key.e_size message ct hm hct
  obtain ⟨em', h1, h2, h3⟩ := C53_encrypt_message hc e (p * q) key.modulus_size key.e_size message hm
  rw [← hem] at h1
  subst h1
  have hv : beVal ct = beVal em' ^ e % (p * q) := by
    rw [Except.ok.inj (hct.symm.trans h3), Model.Big.toBeBytes_val, Model.Big.val_big]
  have hsz := key.modulus_size
  rw [C73_decrypt_iff hc d (p * q) hn key.modulus_size key.d_size ct m' (by omega), hv, ← Nat.pow_mod, ← Nat.pow_mul,
    Model.Rsa.rsa_correct p q e d _ key.p_prime key.q_prime key.distinct key.inverse h2]
  have hel := Model.Oaep.length_encode (h := sha256Digest) (by omega) (List.replicate 32 42#8) [] message _ (by simp) hm
  rw [← hem] at hel
  constructor
  · rintro ⟨g1, seed, g2, g3⟩
    refine ⟨g1, seed, g2, eq_of_beVal ?_ (by rw [Model.Oaep.beVal_zeros_append]; exact g3)⟩
    rw [List.length_append, List.length_replicate, Model.Oaep.length_encode (by omega) seed [] m' _ g2 g1, hel]
    omega
  · rintro ⟨g1, seed, g2, g3⟩
    exact ⟨g1, seed, g2, by rw [g3, Model.Oaep.beVal_zeros_append]⟩

/-- C91: when the ciphertext is not shortened, the only message that can come out is the right one, and it does. -/
theorem C91_full_length {cap : Nat → Nat} (hc : CapOk cap) (p q e d : Nat) (key : KeyPair p q e d) (message ct : List U8)
    (hm : message.length + 66 ≤ ((p * q).size - 1) / 8 + 1)
    (hct : encryptMessage cap ⟨big e, big (p * q)⟩ message Model.Oaep.rsaPadding = .ok ct)
    (hfull : ct.length = ((p * q).size - 1) / 8 + 1) (m' : List U8) :
    decryptMessage cap ⟨big d, big (p * q)⟩ ct Model.Oaep.rsaPadding = .ok m' ↔ m' = message := by
  have h := C56_roundtrip_partial hc p q e d key message ct hm hct hfull
  rw [h]
  constructor
  · intro g; exact (Except.ok.inj g).symm
  · intro g; rw [g]

/-- `example_key` is a key pair with a modulus of 81 bytes: `C91` speaks about messages of up to 15 bytes under it. -/
example : KeyPair (2 ^ 521 - 1) (2 ^ 127 - 1) 13 exampleD ∧ ([1, 2, 3] : List U8).length + 66 ≤ 81 := ⟨example_key, by decide⟩

/-! ## C92 -/

/-- C92: whatever three numbers key generation gets — not prime, not normalised, of any size — if it returns keys, then the
modulus is the product and the exponents are inverse to each other modulo the least common multiple. -/
theorem C92_keys_sound (p q e : BigUint) (sk : PrivateKey) (pk : PublicKey) (h : createKeys p q e = .ok (sk, pk)) :
    val sk.n = val p * val q ∧ sk.n = pk.n ∧ val pk.e = val e ∧
      val pk.e * val sk.d ≡ 1 [MOD Nat.lcm (val p - 1) (val q - 1)] := by
  obtain ⟨d, _, _, _, _, h5, h6, h7⟩ := Model.Rsa.createKeys_sound p q e sk pk h
  subst h6 h7
  simp only [Model.Big.val_big, true_and]
  exact h5

/-- C92: the numbers in the keys are normalised even if the arguments are not. -/
theorem C92_keys_normalised (p q e : BigUint) (sk : PrivateKey) (pk : PublicKey) (h : createKeys p q e = .ok (sk, pk)) :
    sk.n = big (val sk.n) ∧ sk.d = big (val sk.d) ∧ pk.n = big (val pk.n) ∧ pk.e = big (val pk.e) := by
  obtain ⟨d, _, _, _, _, _, h6, h7⟩ := Model.Rsa.createKeys_sound p q e sk pk h
  subst h6 h7
  simp only [Model.Big.val_big, and_self]

/-- C92: keys never come out when the product does not fit 128 bits or one of the two numbers is zero. -/
theorem C92_keys_only_if (p q e : BigUint) (sk : PrivateKey) (pk : PublicKey) (h : createKeys p q e = .ok (sk, pk)) :
    1 ≤ val p ∧ 1 ≤ val q ∧ val p * val q < 2 ^ 128 ∧ val e < 2 ^ 128 ∧
      Nat.Coprime (val e) (Nat.lcm (val p - 1) (val q - 1)) := by
  obtain ⟨d, h1, h2, h3, h4, h5, _, _⟩ := Model.Rsa.createKeys_sound p q e sk pk h
  refine ⟨h1, h2, h3, h4, ?_⟩
  have h6 := h5.gcd_eq
  rw [Nat.gcd_one_left] at h6
  exact Nat.Coprime.coprime_mul_right h6

/-- C92: the two primes can be given in either order: the same keys, or the same panic, for all arguments. -/
theorem C92_keys_symmetric (p q e : BigUint) : createKeys p q e = createKeys q p e := by
  unfold createKeys
  rw [Model.Big.asU128_eq, Model.Big.asU128_eq, Model.Big.asU128_eq]
  have hlcm : ∀ a b, Model.Rsa.lcm a b = Model.Rsa.lcm b a := by
    intro a b
    unfold Model.Rsa.lcm mulU128
    rw [Nat.mul_comm a b, Nat.gcd_comm a b]
  have hmul : ∀ a b, mulU128 a b = mulU128 b a := by
    intro a b; unfold mulU128; rw [Nat.mul_comm a b]
  by_cases hp : p.bytes.length ≤ 16 <;> by_cases hq : q.bytes.length ≤ 16
  · rw [if_pos hp, if_pos hq]
    simp only [bind, Except.bind, unwrapResult]
    generalize (BitVec.ofNat 128 (val p)).toNat = a
    generalize (BitVec.ofNat 128 (val q)).toNat = b
    rw [hmul a b]
    have hs : ∀ x, subU x 1 = .ok (x - 1) ∨ subU x 1 = .error .overflow := by
      intro x; unfold subU; split
      · exact .inl rfl
      · exact .inr rfl
    rcases hs a with ha | ha <;> rcases hs b with hb | hb <;> simp only [ha, hb]
    rw [hlcm (a - 1) (b - 1)]
  · rw [if_pos hp, if_neg hq]; rfl
  · rw [if_neg hp, if_pos hq]; rfl
  · rw [if_neg hp, if_neg hq]; rfl

/-- C92: there is no primality test: with 9 for one of the primes, keys come out with which 3 does not survive. -/
theorem C92_composite : ∃ sk pk, createKeys ⟨[9#8]⟩ ⟨[5#8]⟩ ⟨[3#8]⟩ = .ok (sk, pk) ∧
    (do decrypt exactCap (.ofPrivate sk) (← encrypt exactCap (.ofPublic pk) ⟨[3#8]⟩)) = .ok ⟨[18#8]⟩ :=
  ⟨⟨⟨[45#8]⟩, ⟨[3#8]⟩⟩, ⟨⟨[45#8]⟩, ⟨[3#8]⟩⟩, by decide +kernel, by decide +kernel⟩

/-- A modulus of the exponents above 2^127 occurs and is handled: 2^64 and 2^64 - 1 are not prime, the least common multiple
of 2^64 - 1 and 2^64 - 2 is above 2^127. -/
example : 2 ^ 127 < Nat.lcm (2 ^ 64 - 1) (2 ^ 64 - 2) ∧
    createKeys ⟨[0#8, 0#8, 0#8, 0#8, 0#8, 0#8, 0#8, 0#8, 1#8]⟩
      ⟨[255#8, 255#8, 255#8, 255#8, 255#8, 255#8, 255#8, 255#8]⟩ ⟨[1#8]⟩ =
      .ok (⟨big (2 ^ 64 * (2 ^ 64 - 1)), big 1⟩, ⟨big (2 ^ 64 * (2 ^ 64 - 1)), big 1⟩) := by
  refine ⟨by decide +kernel, ?_⟩
  decide +kernel

/-! ## C93 -/

/-- C93: encryption with a valid key is a permutation of the numbers below the modulus. -/
theorem C93_permutation {cap : Nat → Nat} (hc : CapOk cap) (p q e d : Nat) (key : KeyPair p q e d) (y : Nat)
    (hy : y < p * q) : ∃! x, x < p * q ∧ encrypt cap ⟨big e, big (p * q)⟩ (big x) = .ok (big y) := by
  have hn : 2 ≤ p * q := Nat.le_trans key.p_prime.two_le (Nat.le_mul_of_pos_right p key.q_prime.pos)
  have hs : ∀ z, z < p * q → z.size ≤ 2 ^ 31 - 8 := fun z hz => Nat.le_trans (Nat.size_le_size hz.le) key.modulus_size
  have henc : ∀ x, x < p * q → encrypt cap ⟨big e, big (p * q)⟩ (big x) = .ok (big (x ^ e % (p * q))) :=
    fun x hx => (C50_encrypt hc x e (p * q) hn key.modulus_size (hs x hx) key.e_size).1
  have hlt : y ^ d % (p * q) < p * q := Nat.mod_lt _ (by omega)
  refine ⟨y ^ d % (p * q), ⟨hlt, ?_⟩, ?_⟩
  · rw [henc _ hlt, ← Nat.pow_mod, ← Nat.pow_mul, Model.Rsa.rsa_correct p q d e y key.p_prime key.q_prime key.distinct
      (by rw [Nat.mul_comm]; exact key.inverse) hy]
  · rintro x ⟨hx, h⟩
    rw [henc x hx] at h
    have h := congrArg val (Except.ok.inj h)
    rw [Model.Big.val_big, Model.Big.val_big] at h
    rw [← h, ← Nat.pow_mod, ← Nat.pow_mul,
      Model.Rsa.rsa_correct p q e d x key.p_prime key.q_prime key.distinct key.inverse hx]

/-- C93: without padding some numbers are their own ciphertext: under an odd exponent every `x` with `x³ ≡ x` is (for a product
of two odd primes these are nine numbers, among them 0, 1 and n - 1). -/
theorem C93_fixed_points {cap : Nat → Nat} (hc : CapOk cap) (e n x : Nat) (hn : 2 ≤ n) (hsn : n.size ≤ 2 ^ 31 - 8)
    (hse : e.size ≤ 2 ^ 32 - 8) (he : e % 2 = 1) (hx : x < n) (h3 : x ^ 3 ≡ x [MOD n]) :
    encrypt cap ⟨big e, big n⟩ (big x) = .ok (big x) := by
  rw [(C50_encrypt hc x e n hn hsn (Nat.le_trans (Nat.size_le_size hx.le) hsn) hse).1]
  have : ∀ j, x ^ (2 * j + 1) ≡ x [MOD n] := by
    intro j
    induction j with
    | zero => simp [Nat.ModEq]
    | succ j ih =>
      calc x ^ (2 * (j + 1) + 1) = x ^ (2 * j + 1) * x ^ 2 := by ring
        _ ≡ x * x ^ 2 [MOD n] := ih.mul_right _
        _ = x ^ 3 := by ring
        _ ≡ x [MOD n] := h3
  have h := this (e / 2)
  rw [show 2 * (e / 2) + 1 = e by omega] at h
  unfold Nat.ModEq at h
  rw [h, Nat.mod_eq_of_lt hx]

/-- C93: 0, 1 and n - 1 are such numbers for every modulus. -/
theorem C93_fixed_points_exist (n : Nat) (hn : 2 ≤ n) :
    (0 ^ 3 ≡ 0 [MOD n]) ∧ (1 ^ 3 ≡ 1 [MOD n]) ∧ ((n - 1) ^ 3 ≡ n - 1 [MOD n]) := by
  refine ⟨rfl, rfl, ?_⟩
  obtain ⟨k, rfl⟩ : ∃ k, n = k + 1 := ⟨n - 1, by omega⟩
  rw [Nat.add_sub_cancel]
  have : k * (k + 1) * (k - 1) + k = k ^ 3 := by
    obtain ⟨j, rfl⟩ : ∃ j, k = j + 1 := ⟨k - 1, by omega⟩
    simp only [Nat.add_sub_cancel]
    ring
  rw [← this]
  have hd : k * (k + 1) * (k - 1) ≡ 0 [MOD k + 1] :=
    (Nat.modEq_zero_iff_dvd).2 ⟨k * (k - 1), by ring⟩
  simpa using hd.add_right k

example : encrypt exactCap ⟨⟨[17#8]⟩, ⟨[0xa1#8, 0x0c#8]⟩⟩ ⟨[0xa0#8, 0x0c#8]⟩ = .ok ⟨[0xa0#8, 0x0c#8]⟩ := by decide +kernel

/-! ## C94 -/

/-- C94: keys whose exponents are inverse modulo (p-1)(q-1), as other programs make them, work as well: they are key
pairs in the sense of C56, C71, C72, C91 and C93. -/
theorem C94_euler_keys (p q e d : Nat) (hp : p.Prime) (hq : q.Prime) (hpq : p ≠ q)
    (hed : e * d ≡ 1 [MOD (p - 1) * (q - 1)]) (hsn : (p * q).size ≤ 2 ^ 31 - 8) (hse : e.size ≤ 2 ^ 32 - 8)
    (hsd : d.size ≤ 2 ^ 32 - 8) : KeyPair p q e d where
  p_prime := hp
  q_prime := hq
  distinct := hpq
  inverse := hed.of_dvd (Nat.lcm_dvd (dvd_mul_right _ _) (dvd_mul_left _ _))
  modulus_size := hsn
  e_size := hse
  d_size := hsd

/-- C94: two private exponents for the same public key decrypt every number to the same number. -/
theorem C94_private_exponents {cap : Nat → Nat} (hc : CapOk cap) (p q e d d' : Nat) (key : KeyPair p q e d)
    (key' : KeyPair p q e d') (y : Nat) (hy : y < p * q) :
    decrypt cap ⟨big d, big (p * q)⟩ (big y) = decrypt cap ⟨big d', big (p * q)⟩ (big y) := by
  have hn : 2 ≤ p * q := Nat.le_trans key.p_prime.two_le (Nat.le_mul_of_pos_right p key.q_prime.pos)
  have hs : ∀ z, z < p * q → z.size ≤ 2 ^ 31 - 8 := fun z hz => Nat.le_trans (Nat.size_le_size hz.le) key.modulus_size
  obtain ⟨x, ⟨hx, hex⟩, _⟩ := C93_permutation hc p q e d key y hy
  have h1 := C49_roundtrip_any_size hc p q e d x key.p_prime key.q_prime key.distinct key.inverse hx key.modulus_size
    key.e_size key.d_size
  have h2 := C49_roundtrip_any_size hc p q e d' x key.p_prime key.q_prime key.distinct key'.inverse hx key.modulus_size
    key.e_size key'.d_size
  simp only [hex, bind, Except.bind] at h1 h2
  rw [h1, h2]

/-- The textbook example: 61 · 53, e = 17; d = 413 modulo the least common multiple, 2753 modulo the product. -/
example : 17 * 413 ≡ 1 [MOD Nat.lcm 60 52] ∧ 17 * 2753 ≡ 1 [MOD 60 * 52] ∧
    decrypt exactCap ⟨big 413, big 3233⟩ ⟨[0xe6#8, 0x0a#8]⟩ = .ok ⟨[65#8]⟩ ∧
    decrypt exactCap ⟨big 2753, big 3233⟩ ⟨[0xe6#8, 0x0a#8]⟩ = .ok ⟨[65#8]⟩ := by
  refine ⟨by decide +kernel, by decide +kernel, by decide +kernel, by decide +kernel⟩

/-- C92 and C93 applied. -/
example : val (⟨[0xa1#8, 0x0c#8]⟩ : BigUint) = 61 * 53 ∧ (⟨[0x9d#8, 0x01#8]⟩ : BigUint) = big (val ⟨[0x9d#8, 0x01#8]⟩) ∧
    Nat.Coprime (val ⟨[17#8]⟩) (Nat.lcm (val ⟨[61#8]⟩ - 1) (val ⟨[53#8]⟩ - 1)) := by
  have h : createKeys ⟨[61#8]⟩ ⟨[53#8]⟩ ⟨[17#8]⟩ = .ok (⟨⟨[0xa1#8, 0x0c#8]⟩, ⟨[0x9d#8, 0x01#8]⟩⟩, ⟨⟨[0xa1#8, 0x0c#8]⟩, ⟨[17#8]⟩⟩) := by
    decide +kernel
  exact ⟨(C92_keys_sound _ _ _ _ _ h).1, (C92_keys_normalised _ _ _ _ _ h).2.1, (C92_keys_only_if _ _ _ _ _ h).2.2.2.2⟩
example : ∃! x, x < (2 ^ 521 - 1) * (2 ^ 127 - 1) ∧
    encrypt exactCap ⟨big 13, big ((2 ^ 521 - 1) * (2 ^ 127 - 1))⟩ (big x) = .ok (big 42) :=
  C93_permutation exactCap_ok _ _ 13 exampleD example_key 42 (by decide +kernel)

end Verif.Props
