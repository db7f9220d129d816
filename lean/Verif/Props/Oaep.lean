import Verif.Proof.RsaMessage
import Verif.Proof.Sha
import Verif.Props.Sha
import Verif.Props.Rsa
import Mathlib.NumberTheory.LucasLehmer

/-! # C51–C56: MGF1, OAEP, and RSA encryption of messages

A hash function of the program is `hash : List U8 → R (Vector U8 N)` (it may panic on absurdly long messages). The
theorems hold for every `hash` that computes some function `h` on all messages shorter than `bound`. For SHA-256 the
function is the one of FIPS 180-4 and the bound is 2^61 (`sha256_computes`). -/

namespace Verif.Props
open Verif Verif.Model.Big Verif.Model.Rsa Verif.Spec.Big

/-- `hash` returns `h m` for every `m` shorter than `bound`. -/
def Computes {N : Nat} (hash : List U8 → R (Vector U8 N)) (h : List U8 → Vector U8 N) (bound : Nat) : Prop :=
  ∀ m, m.length < bound → hash m = .ok (h m)

/-- The SHA-256 digest of FIPS 180-4 as an array. -/
noncomputable def sha256Digest (m : List U8) : Vector U8 32 := Vector.ofFn fun i => (Spec.Sha.sha256 m).getD i 0#8

theorem sha256_computes : Computes Model.Sha.sha256 sha256Digest (2 ^ 61) := by
  intro m hm
  obtain ⟨d, h1, h2⟩ := C26_sha256 m hm
  rw [h1]
  apply congrArg
  apply Vector.ext
  intro i hi
  unfold sha256Digest
  rw [Vector.getElem_ofFn, ← h2, List.getD_eq_getElem _ _ (by simpa using hi), Vector.getElem_toList]

theorem sha256Digest_toList (m : List U8) (hm : m.length < 2 ^ 61) : (sha256Digest m).toList = Spec.Sha.sha256 m := by
  obtain ⟨d, h1, h2⟩ := C26_sha256 m hm
  rw [Except.ok.inj ((sha256_computes m hm).symm.trans h1), h2]

/-! ## C51 -/

/-- C51: `mgf1` is MGF1 of RFC 8017 whenever fewer than 2^32 digests are needed. -/
theorem C51_mgf1 {N : Nat} (hash : List U8 → R (Vector U8 N)) (h : List U8 → Vector U8 N) (bound : Nat)
    (hh : Computes hash h bound) (hN : 0 < N) (seed : List U8) (len : Nat) (hs : seed.length + 4 < bound)
    (hlim : (len + N - 1) / N < 2 ^ 32) (hcap : len + N < 2 ^ 63) :
    Model.Oaep.mgf1 hash seed len = .ok (Spec.Oaep.mgf1 h seed len) :=
  Model.Oaep.mgf1_ok (Model.Oaep.hash_counter hh seed hs) hN len hlim hcap

/-- C51: when 2^32 digests or more are needed it panics (RFC 8017 would still allow exactly 2^32). -/
theorem C51_mgf1_too_long {N : Nat} (hash : List U8 → R (Vector U8 N)) (h : List U8 → Vector U8 N) (bound : Nat)
    (hh : Computes hash h bound) (hN : 0 < N) (seed : List U8) (len : Nat) (hs : seed.length + 4 < bound)
    (hlim : 2 ^ 32 ≤ (len + N - 1) / N) (hcap : len + N < 2 ^ 63) :
    Model.Oaep.mgf1 hash seed len = .error .overflow :=
  Model.Oaep.mgf1_panics (Model.Oaep.hash_counter hh seed hs) hN len hlim hcap

/-- C51: the output has the requested length. -/
theorem C51_mgf1_length {N : Nat} (h : List U8 → Vector U8 N) (hN : 0 < N) (seed : List U8) (len : Nat) :
    (Spec.Oaep.mgf1 h seed len).length = len := Model.Oaep.length_mgf1 hN seed len

/-- C51: shorter outputs are prefixes of longer ones. -/
theorem C51_mgf1_prefix {N : Nat} (hash : List U8 → R (Vector U8 N)) (h : List U8 → Vector U8 N) (bound : Nat)
    (hh : Computes hash h bound) (hN : 0 < N) (seed : List U8) (a b : Nat) (hs : seed.length + 4 < bound) (hab : a ≤ b)
    (hlim : (b + N - 1) / N < 2 ^ 32) (hcap : b + N < 2 ^ 63) :
    ∃ x y, Model.Oaep.mgf1 hash seed a = .ok x ∧ Model.Oaep.mgf1 hash seed b = .ok y ∧ x <+: y ∧ x.length = a ∧
      y.length = b := by
  have hdiv : (a + N - 1) / N ≤ (b + N - 1) / N := Nat.div_le_div_right (by omega)
  refine ⟨_, _, C51_mgf1 hash h bound hh hN seed a hs (by omega) (by omega), C51_mgf1 hash h bound hh hN seed b hs hlim hcap,
    ?_, C51_mgf1_length h hN seed a, C51_mgf1_length h hN seed b⟩
  exact Model.Oaep.mgf1_prefix hN seed a b hab

example : Computes (fun m => .ok #v[BitVec.ofNat 8 m.length, m.foldl (· + ·) 0#8])
    (fun m => #v[BitVec.ofNat 8 m.length, m.foldl (· + ·) 0#8]) 1000 ∧
    Spec.Oaep.mgf1 (fun m => #v[BitVec.ofNat 8 m.length, m.foldl (· + ·) 0#8]) [7#8, 8#8] 5 =
      [6#8, 15#8, 6#8, 16#8, 6#8] ∧ (5 + 2 - 1) / 2 = 3 := by
  refine ⟨fun m _ => rfl, by decide +kernel, by decide⟩

/-! ## C52, C53, C54: OAEP -/

/-- C53: the encoding is EME-OAEP of RFC 8017 with the seed 42, 42, …, has exactly `k` bytes and starts with a zero
byte. -/
theorem C53_encode {N : Nat} (hash : List U8 → R (Vector U8 N)) (h : List U8 → Vector U8 N) (bound : Nat)
    (hh : Computes hash h bound) (hN : 0 < N) (label message : List U8) (k : Nat)
    (hk : message.length + 2 * N + 2 ≤ k) (hlabel : label.length < bound) (hkb : k + 4 ≤ bound) (hk62 : k < 2 ^ 62)
    (hlim : (k - N - 1 + N - 1) / N < 2 ^ 32) :
    ∃ em, Model.Oaep.encode hash label message k = .ok em ∧ em.length = k ∧ em.head? = some 0#8 ∧
      em = Spec.Oaep.encode h (List.replicate N 42#8) label message k :=
  ⟨_, Model.Oaep.encode_ok hh hN label message k hk hlabel hkb hk62 hlim,
    Model.Oaep.length_encode hN _ label message k (by simp) hk, rfl, rfl⟩

/-- C52: encoding panics when the output is too small. -/
theorem C52_encode_panics {N : Nat} (hash : List U8 → R (Vector U8 N)) (h : List U8 → Vector U8 N) (bound : Nat)
    (hh : Computes hash h bound) (label message : List U8) (k : Nat) (hk : k < message.length + 2 * N + 2)
    (hlabel : label.length < bound) : Model.Oaep.encode hash label message k = .error .explicit :=
  Model.Oaep.encode_panics label message k (h label) (hh label hlabel) hk

/-- C54: for inputs of the declared length `k ≥ 2N + 1`, decoding accepts exactly the RFC 8017 encodings (with any seed)
under that label, and returns the encoded message. -/
theorem C54_decode_iff {N : Nat} (hash : List U8 → R (Vector U8 N)) (h : List U8 → Vector U8 N) (bound : Nat)
    (hh : Computes hash h bound) (hN : 0 < N) (label em m : List U8) (k : Nat) (hem : em.length = k)
    (hk : 2 * N + 1 ≤ k) (hlabel : label.length < bound) (hkb : k + 4 ≤ bound) (hk62 : k < 2 ^ 62)
    (hlim : (k - N - 1 + N - 1) / N < 2 ^ 32) :
    Model.Oaep.decode hash label em k = .ok (.ok m) ↔
      ∃ seed, seed.length = N ∧ m.length + 2 * N + 2 ≤ k ∧ em = Spec.Oaep.encode h seed label m k := by
  obtain ⟨b, ms, mdb, rfl, hms, hmdb⟩ := Model.Oaep.split_em em N (by omega)
  by_cases hb : b = 0#8
  · subst hb
    rw [Model.Oaep.decode_eq hh hN label ms mdb k hms (by omega) hlabel hkb hk62 hlim, if_neg (by omega),
      ← Model.Oaep.encode_unmask hN label ms mdb m k hms (by omega)]
    constructor
    · intro e; injection e
    · intro e; rw [e]
  · rw [Model.Oaep.decode_first_byte label (b :: ms ++ mdb) k b (ms ++ mdb) rfl hb]
    constructor
    · intro e; injection e with e; cases e
    · rintro ⟨seed, _, _, e⟩
      unfold Spec.Oaep.encode at e
      injection e with e
      exact absurd e hb

/-- C54: every other input of admissible length gives an error value, not a panic. -/
theorem C54_decode_no_panic {N : Nat} (hash : List U8 → R (Vector U8 N)) (h : List U8 → Vector U8 N) (bound : Nat)
    (hh : Computes hash h bound) (hN : 0 < N) (label em : List U8) (k : Nat) (hem : em.length = k)
    (hk : 2 * N + 1 ≤ k) (hlabel : label.length < bound) (hkb : k + 4 ≤ bound) (hk62 : k < 2 ^ 62)
    (hlim : (k - N - 1 + N - 1) / N < 2 ^ 32) :
    ∃ r, Model.Oaep.decode hash label em k = .ok r := by
  obtain ⟨b, ms, mdb, rfl, hms, hmdb⟩ := Model.Oaep.split_em em N (by omega)
  by_cases hb : b = 0#8
  · subst hb
    rw [Model.Oaep.decode_eq hh hN label ms mdb k hms (by omega) hlabel hkb hk62 hlim, if_neg (by omega)]
    exact ⟨_, rfl⟩
  · exact ⟨_, Model.Oaep.decode_first_byte label (b :: ms ++ mdb) k b (ms ++ mdb) rfl hb⟩

/-- C54: exactly when decoding panics (lengths within the limits of MGF1): on the empty input, and on inputs that start
with a zero byte but are shorter than `2N + 1` bytes or do not have the declared length. -/
theorem C54_decode_panics_iff {N : Nat} (hash : List U8 → R (Vector U8 N)) (h : List U8 → Vector U8 N) (bound : Nat)
    (hh : Computes hash h bound) (hN : 0 < N) (label em : List U8) (k : Nat) (hlabel : label.length < bound)
    (hkb : k + 4 ≤ bound) (hk62 : k < 2 ^ 62) (hlim : (k - N - 1 + N - 1) / N < 2 ^ 32) (hemb : em.length + 4 ≤ bound)
    (hNb : 2 * N < 2 ^ 62 ∧ N + 4 < bound) :
    (∃ p, Model.Oaep.decode hash label em k = .error p) ↔
      em = [] ∨ (em.head? = some 0#8 ∧ (em.length < 2 * N + 1 ∨ em.length ≠ k)) :=
  Model.Oaep.decode_panics_iff hh hN label em k hlabel hkb hk62 hlim hemb hNb

/-- C52: decoding undoes encoding, for every label and message. -/
theorem C52_roundtrip {N : Nat} (hash : List U8 → R (Vector U8 N)) (h : List U8 → Vector U8 N) (bound : Nat)
    (hh : Computes hash h bound) (hN : 0 < N) (label message : List U8) (k : Nat)
    (hk : message.length + 2 * N + 2 ≤ k) (hlabel : label.length < bound) (hkb : k + 4 ≤ bound) (hk62 : k < 2 ^ 62)
    (hlim : (k - N - 1 + N - 1) / N < 2 ^ 32) :
    (do Model.Oaep.decode hash label (← Model.Oaep.encode hash label message k) k) = .ok (.ok message) := by
  obtain ⟨em, h1, h2, _, h3⟩ := C53_encode hash h bound hh hN label message k hk hlabel hkb hk62 hlim
  simp only [h1, bind, Except.bind]
  exact (C54_decode_iff hash h bound hh hN label em message k h2 (by omega) hlabel hkb hk62 hlim).2
    ⟨_, by simp, hk, h3⟩

/-- C54: an encoding made for one label is accepted under another only if the label hashes collide. -/
theorem C54_wrong_label {N : Nat} (hash : List U8 → R (Vector U8 N)) (h : List U8 → Vector U8 N) (bound : Nat)
    (hh : Computes hash h bound) (hN : 0 < N) (label label' seed message m : List U8) (k : Nat) (hs : seed.length = N)
    (hk : message.length + 2 * N + 2 ≤ k) (hlabel : label'.length < bound) (hkb : k + 4 ≤ bound) (hk62 : k < 2 ^ 62)
    (hlim : (k - N - 1 + N - 1) / N < 2 ^ 32)
    (hdec : Model.Oaep.decode hash label' (Spec.Oaep.encode h seed label message k) k = .ok (.ok m)) :
    h label' = h label ∧ m = message := by
  obtain ⟨seed', hs', hk', e⟩ := (C54_decode_iff hash h bound hh hN label' _ m k
    (Model.Oaep.length_encode hN _ _ _ _ hs hk) (by omega) hlabel hkb hk62 hlim).1 hdec
  obtain ⟨_, e1, e2⟩ := Model.Oaep.encode_inj hN seed seed' label label' message m k hs hs' hk hk' e
  exact ⟨e1.symm, e2.symm⟩

/-- The limits are met by SHA-256 and any `k` from 66 up to 2^32. -/
theorem sha256_limits (k : Nat) (h : k < 2 ^ 32) : (k - 32 - 1 + 32 - 1) / 32 < 2 ^ 32 ∧ k + 4 ≤ 2 ^ 61 ∧ k < 2 ^ 62 := by
  omega

/-- C52 for `RsaPadding`: OAEP with SHA-256. -/
theorem C52_rsa_padding (label message : List U8) (k : Nat) (hk : message.length + 66 ≤ k) (hk32 : k < 2 ^ 32)
    (hlabel : label.length < 2 ^ 61) :
    (do Model.Oaep.rsaPadding.decode label (← Model.Oaep.rsaPadding.encode label message k) k) = .ok (.ok message) :=
  C52_roundtrip _ _ _ sha256_computes (by omega) label message k hk hlabel (sha256_limits k hk32).2.1
    (sha256_limits k hk32).2.2 (sha256_limits k hk32).1

/-- C53 for `RsaPadding`. -/
theorem C53_rsa_padding (label message : List U8) (k : Nat) (hk : message.length + 66 ≤ k) (hk32 : k < 2 ^ 32)
    (hlabel : label.length < 2 ^ 61) :
    Model.Oaep.rsaPadding.encode label message k =
      .ok (Spec.Oaep.encode sha256Digest (List.replicate 32 42#8) label message k) := by
  obtain ⟨em, h1, _, _, h2⟩ := C53_encode _ _ _ sha256_computes (by omega) label message k hk hlabel
    (sha256_limits k hk32).2.1 (sha256_limits k hk32).2.2 (sha256_limits k hk32).1
  rw [← h2]
  exact h1

set_option maxRecDepth 4000 in
/-- A concrete encoding (it is used again below). -/
theorem oaep_example : Model.Oaep.rsaPadding.encode [] [0#8] 81 = .ok
    [0x00#8, 0x06#8, 0xd3#8, 0x32#8, 0x47#8, 0xf8#8, 0xd8#8, 0x73#8, 0x2f#8, 0xc8#8, 0x4f#8, 0x82#8, 0xe5#8, 0xe0#8,
     0x29#8, 0x2a#8, 0xa8#8, 0xe1#8, 0xe7#8, 0xe9#8, 0x94#8, 0x63#8, 0x75#8, 0xa5#8, 0x77#8, 0x84#8, 0xde#8, 0xf7#8,
     0xa4#8, 0x0c#8, 0xa1#8, 0x84#8, 0xce#8, 0x56#8, 0x7c#8, 0x31#8, 0x7e#8, 0x89#8, 0x2b#8, 0xe8#8, 0x2f#8, 0xb3#8,
     0xfe#8, 0x6a#8, 0x2a#8, 0x29#8, 0x53#8, 0xa2#8, 0x92#8, 0xd6#8, 0xa4#8, 0x92#8, 0x13#8, 0x3f#8, 0xcb#8, 0x7c#8,
     0xc6#8, 0x10#8, 0xe2#8, 0x37#8, 0xca#8, 0x41#8, 0xe0#8, 0x19#8, 0x1b#8, 0x23#8, 0xa5#8, 0x8b#8, 0xca#8, 0x6a#8,
     0xb8#8, 0x52#8, 0x35#8, 0xad#8, 0xc3#8, 0x0e#8, 0x77#8, 0x28#8, 0xc2#8, 0x98#8, 0xc5#8] := by
  decide +kernel

/-- C53: the encoding is a number below every modulus of `k` bytes, so `encrypt_message` computes RSAES-OAEP
(with the constant seed) and its assertion never fires. -/
theorem C53_encrypt_message {cap : Nat → Nat} (hc : CapOk cap) (e n : Nat) (hsn : n.size ≤ 2 ^ 31 - 8)
    (hse : e.size ≤ 2 ^ 32 - 8) (message : List U8) (hk : message.length + 66 ≤ (n.size - 1) / 8 + 1) :
    ∃ em, em = Spec.Oaep.encode sha256Digest (List.replicate 32 42#8) [] message ((n.size - 1) / 8 + 1) ∧ beVal em < n ∧
      encryptMessage cap ⟨big e, big n⟩ message Model.Oaep.rsaPadding = .ok (toBeBytes (big (beVal em ^ e % n))) := by
  have hsz : 66 ≤ (n.size - 1) / 8 + 1 := by omega
  have hn : 2 ≤ n := by
    have : 2 ^ 1 ≤ n := Nat.lt_size.1 (by omega)
    omega
  have h1 := C53_rsa_padding [] message ((n.size - 1) / 8 + 1) hk (by omega) (by simp)
  have h2 := Model.Oaep.beVal_encode_lt (h := sha256Digest) (by omega) (List.replicate 32 42#8) [] message
    ((n.size - 1) / 8 + 1) (by simp) hk
  have h3 := (Model.Oaep.nLen_bounds n (by omega)).1
  rw [Nat.add_sub_cancel] at h2
  exact ⟨_, rfl, by omega, Model.Oaep.encryptMessage_eq hc e n hn hsn hse _ _ _ h1 (by omega)⟩

/-- C53: messages that are too long make `encrypt_message` panic. -/
theorem C53_encrypt_message_too_long {cap : Nat → Nat} (e n : Nat) (hn : 0 < n) (hsn : n.size ≤ 2 ^ 31 - 8)
    (message : List U8) (hk : (n.size - 1) / 8 + 1 < message.length + 66) :
    encryptMessage cap ⟨big e, big n⟩ message Model.Oaep.rsaPadding = .error .explicit :=
  Model.Oaep.encryptMessage_panics e n hn hsn _ _ _
    (C52_encode_panics _ _ _ sha256_computes [] message _ hk (by simp))

/-! ## C55 and C56: messages -/

/-- An RSA key pair: two distinct primes and exponents that are inverse to each other. -/
structure KeyPair (p q e d : Nat) : Prop where
  p_prime : p.Prime
  q_prime : q.Prime
  distinct : p ≠ q
  inverse : e * d ≡ 1 [MOD Nat.lcm (p - 1) (q - 1)]
  modulus_size : (p * q).size ≤ 2 ^ 31 - 8
  e_size : e.size ≤ 2 ^ 32 - 8
  d_size : d.size ≤ 2 ^ 32 - 8

/-! ### C55 -/

/-- C55 is false: the seed is not random but always 42, 42, …, so the ciphertext is determined by the key and the message
alone. -/
theorem C55_false {cap : Nat → Nat} (hc : CapOk cap) (e n : Nat) (hsn : n.size ≤ 2 ^ 31 - 8) (hse : e.size ≤ 2 ^ 32 - 8)
    (message : List U8) (hk : message.length + 66 ≤ (n.size - 1) / 8 + 1) :
    encryptMessage cap ⟨big e, big n⟩ message Model.Oaep.rsaPadding = .ok (toBeBytes (big
      (beVal (Spec.Oaep.encode sha256Digest (List.replicate 32 42#8) [] message ((n.size - 1) / 8 + 1)) ^ e % n))) := by
  obtain ⟨em, h1, _, h2⟩ := C53_encrypt_message hc e n hsn hse message hk
  rw [h2, h1]

/-- C72: whoever has the public key can test a guess of the message, because a ciphertext of the guess is
the observed ciphertext exactly when the guess is right. -/
theorem C72_guess {cap : Nat → Nat} (hc : CapOk cap) (p q e d : Nat) (key : KeyPair p q e d) (message guess ct : List U8)
    (hm : message.length + 66 ≤ ((p * q).size - 1) / 8 + 1) (hg : guess.length + 66 ≤ ((p * q).size - 1) / 8 + 1)
    (hct : encryptMessage cap ⟨big e, big (p * q)⟩ message Model.Oaep.rsaPadding = .ok ct) :
    encryptMessage cap ⟨big e, big (p * q)⟩ guess Model.Oaep.rsaPadding = .ok ct ↔ guess = message := by
  constructor
  · intro hct'
    obtain ⟨em, h1, h2, h3⟩ := C53_encrypt_message hc e (p * q) key.modulus_size key.e_size message hm
    obtain ⟨em', h1', h2', h3'⟩ := C53_encrypt_message hc e (p * q) key.modulus_size key.e_size guess hg
    have he := Except.ok.inj ((h3.symm.trans hct).trans (hct'.symm.trans h3'))
    have he := congrArg beVal he
    rw [Model.Big.toBeBytes_val, Model.Big.val_big, Model.Big.toBeBytes_val, Model.Big.val_big] at he
    have hv : beVal em = beVal em' := by
      rw [← Model.Rsa.rsa_correct p q e d _ key.p_prime key.q_prime key.distinct key.inverse h2,
        ← Model.Rsa.rsa_correct p q e d _ key.p_prime key.q_prime key.distinct key.inverse h2',
        Nat.pow_mul, Nat.pow_mod, he, ← Nat.pow_mod, ← Nat.pow_mul]
    have hl := Model.Oaep.length_encode (h := sha256Digest) (by omega) (List.replicate 32 42#8) [] message _ (by simp) hm
    have hl' := Model.Oaep.length_encode (h := sha256Digest) (by omega) (List.replicate 32 42#8) [] guess _ (by simp) hg
    rw [← h1] at hl
    rw [← h1'] at hl'
    have hem : em = em' := by rw [← natToBE_beVal em, ← natToBE_beVal em', hl, hl', hv]
    rw [h1, h1'] at hem
    exact (Model.Oaep.encode_inj (by omega) _ _ [] [] message guess _ (by simp) (by simp) hm hg hem).2.2.symm
  · rintro rfl
    exact hct

/-! ### C56 -/

/-- C71: every RFC 8017 RSAES-OAEP ciphertext (empty label, any seed), written with exactly
as many bytes as the modulus, decrypts to its message. -/
theorem C71_decrypt_rfc8017 {cap : Nat → Nat} (hc : CapOk cap) (p q e d : Nat) (key : KeyPair p q e d)
    (seed message : List U8) (hs : seed.length = 32) (k : Nat) (hk : k = ((p * q).size - 1) / 8 + 1)
    (hm : message.length + 66 ≤ k) (ct : List U8) (hlen : ct.length = k)
    (hct : beVal ct = beVal (Spec.Oaep.encode sha256Digest seed [] message k) ^ e % (p * q)) :
    decryptMessage cap ⟨big d, big (p * q)⟩ ct Model.Oaep.rsaPadding = .ok message := by
  have hn : 2 ≤ p * q := Nat.le_trans key.p_prime.two_le (Nat.le_mul_of_pos_right p key.q_prime.pos)
  have hsn := key.modulus_size
  have hk32 : k < 2 ^ 32 := by omega
  have h2 := Model.Oaep.beVal_encode_lt (h := sha256Digest) (by omega) seed [] message k hs hm
  have h3 := (Model.Oaep.nLen_bounds (p * q) (by omega)).1
  have hlt : beVal (Spec.Oaep.encode sha256Digest seed [] message k) < p * q := by
    rw [hk, Nat.add_sub_cancel] at h2
    rw [hk]
    omega
  have hctlt : beVal ct < p * q := by rw [hct]; exact Nat.mod_lt _ (by omega)
  rw [Model.Oaep.decryptMessage_eq hc d (p * q) hn hsn key.d_size _ ct
    (Nat.le_trans (Nat.size_le_size hctlt.le) hsn)]
  have hdec : beVal ct ^ d % (p * q) = beVal (Spec.Oaep.encode sha256Digest seed [] message k) := by
    rw [hct, ← Nat.pow_mod, ← Nat.pow_mul]
    exact Model.Rsa.rsa_correct p q e d _ key.p_prime key.q_prime key.distinct key.inverse hlt
  have hl := Model.Oaep.length_encode (h := sha256Digest) (by omega) seed [] message k hs hm
  rw [hdec, hlen, if_neg (by
    have := Model.Oaep.beVal_lt (Spec.Oaep.encode sha256Digest seed [] message k)
    rw [hl] at this
    omega)]
  have hbe : natToBE k (beVal (Spec.Oaep.encode sha256Digest seed [] message k)) =
      Spec.Oaep.encode sha256Digest seed [] message k := by
    have := natToBE_beVal (Spec.Oaep.encode sha256Digest seed [] message k)
    rwa [hl] at this
  rw [hbe]
  have := (C54_decode_iff _ _ _ sha256_computes (by omega) [] (Spec.Oaep.encode sha256Digest seed [] message k) message k
    hl (by omega) (by simp) (sha256_limits k hk32).2.1 (sha256_limits k hk32).2.2 (sha256_limits k hk32).1).2
    ⟨seed, hs, hm, rfl⟩
  have e : Model.Oaep.rsaPadding.decode [] (Spec.Oaep.encode sha256Digest seed [] message k) k = .ok (.ok message) := this
  simp only [e, bind, Except.bind, unwrapResult]

/-- C56, partial: the round trip holds for every key pair and message whose ciphertext number has as many bytes as the
modulus. Missing: the ciphertexts with a zero top byte (about one in 256), for which it fails, see `C56_short_fails`. -/
theorem C56_roundtrip_partial {cap : Nat → Nat} (hc : CapOk cap) (p q e d : Nat) (key : KeyPair p q e d)
    (message ct : List U8) (hm : message.length + 66 ≤ ((p * q).size - 1) / 8 + 1)
    (hct : encryptMessage cap ⟨big e, big (p * q)⟩ message Model.Oaep.rsaPadding = .ok ct)
    (hfull : ct.length = ((p * q).size - 1) / 8 + 1) :
    decryptMessage cap ⟨big d, big (p * q)⟩ ct Model.Oaep.rsaPadding = .ok message := by
  obtain ⟨em, h1, _, h2⟩ := C53_encrypt_message hc e (p * q) key.modulus_size key.e_size message hm
  rw [hct] at h2
  injection h2 with h2
  refine C71_decrypt_rfc8017 hc p q e d key (List.replicate 32 42#8) message (by simp) _ rfl hm ct hfull ?_
  rw [h2, Model.Big.toBeBytes_val, Model.Big.val_big, h1]

/-- The number of bytes of a ciphertext never exceeds that of the modulus. -/
theorem C56_ciphertext_length {cap : Nat → Nat} (hc : CapOk cap) (e n : Nat) (hsn : n.size ≤ 2 ^ 31 - 8)
    (hse : e.size ≤ 2 ^ 32 - 8) (message ct : List U8) (hk : message.length + 66 ≤ (n.size - 1) / 8 + 1)
    (hct : encryptMessage cap ⟨big e, big n⟩ message Model.Oaep.rsaPadding = .ok ct) :
    ct.length ≤ (n.size - 1) / 8 + 1 := by
  obtain ⟨em, _, h1, h2⟩ := C53_encrypt_message hc e n hsn hse message hk
  rw [hct] at h2
  injection h2 with h2
  rw [h2, Model.Oaep.length_toBeBytes, Model.Big.length_le_iff]
  have := (Model.Oaep.nLen_bounds n (by omega)).2
  have := Nat.mod_lt (beVal em ^ e) (show 0 < n by omega)
  omega

/-- C56 fails when the ciphertext is shorter than the modulus: `decrypt_message` then panics unless the second byte of
the encoding happens to be zero as well. -/
theorem C56_short_fails {cap : Nat → Nat} (hc : CapOk cap) (p q e d : Nat) (key : KeyPair p q e d)
    (message ct em : List U8) (hm : message.length + 66 ≤ ((p * q).size - 1) / 8 + 1)
    (hct : encryptMessage cap ⟨big e, big (p * q)⟩ message Model.Oaep.rsaPadding = .ok ct)
    (hshort : ct.length < ((p * q).size - 1) / 8 + 1)
    (hem : Model.Oaep.rsaPadding.encode [] message (((p * q).size - 1) / 8 + 1) = .ok em) (h1 : em[1]? ≠ some 0#8) :
    ∃ panic, decryptMessage cap ⟨big d, big (p * q)⟩ ct Model.Oaep.rsaPadding = .error panic := by
  have hn : 2 ≤ p * q := Nat.le_trans key.p_prime.two_le (Nat.le_mul_of_pos_right p key.q_prime.pos)
  have hsn := key.modulus_size
  obtain ⟨em', he1, he2, he3⟩ := C53_encrypt_message hc e (p * q) hsn key.e_size message hm
  have heq := C53_rsa_padding [] message (((p * q).size - 1) / 8 + 1) hm (by omega) (by simp)
  rw [hem] at heq
  injection heq with heq
  rw [← heq] at he1
  replace he1 := he1.symm
  subst he1
  rw [hct] at he3
  injection he3 with he3
  have hl := Model.Oaep.length_encode (h := sha256Digest) (by omega) (List.replicate 32 42#8) [] message
    (((p * q).size - 1) / 8 + 1) (by simp) hm
  rw [← heq] at hl
  have hctval : beVal ct = beVal em ^ e % (p * q) := by rw [he3, Model.Big.toBeBytes_val, Model.Big.val_big]
  have hctlt : beVal ct < p * q := by rw [hctval]; exact Nat.mod_lt _ (by omega)
  rw [Model.Oaep.decryptMessage_eq hc d (p * q) hn hsn key.d_size _ ct
    (Nat.le_trans (Nat.size_le_size hctlt.le) hsn)]
  have hdec : beVal ct ^ d % (p * q) = beVal em := by
    rw [hctval, ← Nat.pow_mod, ← Nat.pow_mul]
    exact Model.Rsa.rsa_correct p q e d _ key.p_prime key.q_prime key.distinct key.inverse he2
  rw [hdec]
  by_cases hbig : 256 ^ ct.length ≤ beVal em
  · rw [if_pos hbig]
    exact ⟨_, rfl⟩
  · rw [if_neg hbig]
    obtain ⟨b, rest, rfl, hb⟩ : ∃ b rest, em = 0#8 :: b :: rest ∧ b ≠ 0#8 := by
      rcases em with _ | ⟨a, _ | ⟨b, rest⟩⟩
      · simp at hl
      · simp at hl; omega
      · unfold Spec.Oaep.encode at heq
        injection heq with ha
        subst ha
        exact ⟨b, rest, rfl, by simpa using h1⟩
    simp only [List.length_cons] at hl
    -- the encoding has its top bit in the second byte, so `ct` has exactly one byte less than the modulus
    have hb0 : 0 < b.toNat := by
      rcases Nat.eq_zero_or_pos b.toNat with h | h
      · exact absurd (BitVec.eq_of_toNat_eq h) hb
      · exact h
    have hv : beVal (0#8 :: b :: rest) = beVal (b :: rest) := by rw [Model.Oaep.beVal_cons]; simp
    have hge : 256 ^ rest.length ≤ beVal (b :: rest) := by
      rw [Model.Oaep.beVal_cons]
      have := Nat.mul_le_mul_right (256 ^ rest.length) hb0
      omega
    rw [hv] at hbig ⊢
    have hlen : ct.length = rest.length + 1 := by
      by_contra hne
      have := Nat.pow_le_pow_right (show 0 < 256 by omega) (show ct.length ≤ rest.length by omega)
      omega
    have hbe : natToBE (rest.length + 1) (beVal (b :: rest)) = b :: rest := natToBE_beVal (b :: rest)
    rw [hlen, hbe]
    have e : Model.Oaep.rsaPadding.decode [] (b :: rest) (rest.length + 1) = .ok (.error .firstByteNotZero) :=
      Model.Oaep.decode_first_byte [] _ _ b rest rfl hb
    simp only [e, bind, Except.bind, unwrapResult]
    exact ⟨_, rfl⟩

/-- C73: `decrypt_message` returns a message exactly when the decrypted number is an OAEP encoding of it, of the length of
the ciphertext. -/
theorem C73_decrypt_iff {cap : Nat → Nat} (hc : CapOk cap) (d n : Nat) (hn : 2 ≤ n) (hsn : n.size ≤ 2 ^ 31 - 8)
    (hsd : d.size ≤ 2 ^ 32 - 8) (ct m : List U8) (hct : ct.length ≤ 2 ^ 28 - 1) :
    decryptMessage cap ⟨big d, big n⟩ ct Model.Oaep.rsaPadding = .ok m ↔
      m.length + 66 ≤ ct.length ∧ ∃ seed, seed.length = 32 ∧
        beVal ct ^ d % n = beVal (Spec.Oaep.encode sha256Digest seed [] m ct.length) := by
  have hsz : (beVal ct).size ≤ 2 ^ 31 - 8 := by
    have h1 := Model.Oaep.beVal_lt ct
    have h2 : (beVal ct).size ≤ 8 * ct.length := by
      rw [Nat.size_le, Nat.pow_mul]
      exact h1
    omega
  rw [Model.Oaep.decryptMessage_eq hc d n hn hsn hsd _ ct hsz]
  generalize beVal ct ^ d % n = v
  by_cases hv : 256 ^ ct.length ≤ v
  · rw [if_pos hv]
    constructor
    · intro h; cases h
    · rintro ⟨hm, seed, hs, h⟩
      have h1 := Model.Oaep.beVal_lt (Spec.Oaep.encode sha256Digest seed [] m ct.length)
      rw [Model.Oaep.length_encode (by omega) seed [] m ct.length hs hm] at h1
      omega
  · rw [if_neg hv]
    have hlim := sha256_limits ct.length (by omega)
    have key : Model.Oaep.rsaPadding.decode [] (natToBE ct.length v) ct.length = .ok (.ok m) ↔
        m.length + 66 ≤ ct.length ∧ ∃ seed, seed.length = 32 ∧
          v = beVal (Spec.Oaep.encode sha256Digest seed [] m ct.length) := by
      by_cases hlen : 65 ≤ ct.length
      · have := C54_decode_iff _ _ _ sha256_computes (by omega) [] (natToBE ct.length v) m ct.length (length_natToBE _ _)
          hlen (by simp) hlim.2.1 hlim.2.2 hlim.1
        refine this.trans ?_
        constructor
        · rintro ⟨seed, hs, hm, h⟩
          refine ⟨hm, seed, hs, ?_⟩
          rw [← h, beVal_natToBE, Nat.mod_eq_of_lt (by omega)]
        · rintro ⟨hm, seed, hs, h⟩
          refine ⟨seed, hs, hm, ?_⟩
          have := natToBE_beVal (Spec.Oaep.encode sha256Digest seed [] m ct.length)
          rw [Model.Oaep.length_encode (by omega) seed [] m ct.length hs hm] at this
          rw [h, this]
      · constructor
        · intro h
          have hp := C54_decode_panics_iff _ _ _ sha256_computes (by omega) [] (natToBE ct.length v) ct.length (by simp)
            hlim.2.1 hlim.2.2 hlim.1 (by rw [length_natToBE]; omega) ⟨by omega, by omega⟩
          rcases hem : natToBE ct.length v with _ | ⟨b, l⟩
          · obtain ⟨p, hp'⟩ := hp.2 (Or.inl hem)
            exact absurd (h.symm.trans hp') (by simp)
          · by_cases hb : b = 0#8
            · obtain ⟨p, hp'⟩ := hp.2 (Or.inr ⟨by rw [hem, hb]; rfl, Or.inl (by rw [length_natToBE]; omega)⟩)
              exact absurd (h.symm.trans hp') (by simp)
            · have := Model.Oaep.decode_first_byte (hash := Model.Sha.sha256) [] _ ct.length b l hem hb
              exact absurd (h.symm.trans this) (by simp)
        · rintro ⟨hm, _⟩
          omega
    rw [← key]
    generalize Model.Oaep.rsaPadding.decode [] (natToBE ct.length v) ct.length = r
    rcases r with p | ⟨err | m'⟩ <;> simp [bind, Except.bind, unwrapResult]

/-- A key pair of 648 bits, from the Mersenne primes 2^521 - 1 and 2^127 - 1 and `e = 13`. -/
def exampleD : Nat :=
  0x69069069069069069069069069069067627627627627627627627627627627627627627627627627627627627627627627627627627627627627627627627627620d20d20d20d20d20d20d20d20d20d21

theorem example_key : KeyPair (2 ^ 521 - 1) (2 ^ 127 - 1) 13 exampleD where
  p_prime := lucas_lehmer_sufficiency 521 (by norm_num) (by norm_num)
  q_prime := lucas_lehmer_sufficiency 127 (by norm_num) (by norm_num)
  distinct := by decide +kernel
  inverse := by unfold Nat.ModEq exampleD; decide +kernel
  modulus_size := by
    have : ((2 ^ 521 - 1) * (2 ^ 127 - 1)).size ≤ 648 := by rw [Nat.size_le]; decide +kernel
    omega
  e_size := by
    have : (13 : Nat).size ≤ 4 := by rw [Nat.size_le]; norm_num
    omega
  d_size := by
    have : exampleD.size ≤ 648 := by rw [Nat.size_le]; decide +kernel
    omega

/-- C56 is false: with that key the one-byte message `00` is encrypted, and then decryption panics. -/
theorem C56_false {cap : Nat → Nat} (hc : CapOk cap) : ∃ p q e d message ct panic, KeyPair p q e d ∧
    message.length + 66 ≤ ((p * q).size - 1) / 8 + 1 ∧
    encryptMessage cap ⟨big e, big (p * q)⟩ message Model.Oaep.rsaPadding = .ok ct ∧
    decryptMessage cap ⟨big d, big (p * q)⟩ ct Model.Oaep.rsaPadding = .error panic := by
  have hsize : ((2 ^ 521 - 1) * (2 ^ 127 - 1)).size = 648 := by
    apply Nat.le_antisymm
    · rw [Nat.size_le]; decide +kernel
    · rw [Nat.succ_le_iff, Nat.lt_size]; decide +kernel
  have hk : (((2 ^ 521 - 1) * (2 ^ 127 - 1)).size - 1) / 8 + 1 = 81 := by rw [hsize]
  have hm : ([0#8] : List U8).length + 66 ≤ (((2 ^ 521 - 1) * (2 ^ 127 - 1)).size - 1) / 8 + 1 := by rw [hk]; decide
  obtain ⟨em, h1, _, h2⟩ := C53_encrypt_message hc 13 ((2 ^ 521 - 1) * (2 ^ 127 - 1)) example_key.modulus_size
    example_key.e_size [0#8] hm
  have h3 := C53_rsa_padding [] [0#8] 81 (by decide) (by decide) (by simp)
  rw [hk] at h1
  rw [← h1] at h3
  have h4 := h3
  rw [oaep_example] at h4
  injection h4 with h4
  have hshort : (toBeBytes (big (beVal em ^ 13 % ((2 ^ 521 - 1) * (2 ^ 127 - 1))))).length <
      (((2 ^ 521 - 1) * (2 ^ 127 - 1)).size - 1) / 8 + 1 := by
    rw [hk, Model.Oaep.length_toBeBytes, Nat.lt_succ_iff, Model.Big.length_le_iff, ← h4]
    decide +kernel
  obtain ⟨panic, h5⟩ := C56_short_fails hc _ _ 13 exampleD example_key [0#8] _ em hm h2 hshort (by rw [hk]; exact h3)
    (by rw [← h4]; decide)
  exact ⟨_, _, 13, exampleD, [0#8], _, panic, example_key, hm, h2, h5⟩

theorem example_bytes : (((2 ^ 521 - 1) * (2 ^ 127 - 1)).size - 1) / 8 + 1 = 81 := by
  have hsize : ((2 ^ 521 - 1) * (2 ^ 127 - 1)).size = 648 := by
    apply Nat.le_antisymm
    · rw [Nat.size_le]; decide +kernel
    · rw [Nat.succ_le_iff, Nat.lt_size]; decide +kernel
  rw [hsize]

/-- The hypotheses of `C56_roundtrip_partial` are met, too, by the same key and the message `01`. -/
theorem example_message : ∃ ct, encryptMessage exactCap ⟨big 13, big ((2 ^ 521 - 1) * (2 ^ 127 - 1))⟩ [1#8] Model.Oaep.rsaPadding = .ok ct ∧
    ct.length = 81 := by
  have hsize : ((2 ^ 521 - 1) * (2 ^ 127 - 1)).size = 648 := by
    apply Nat.le_antisymm
    · rw [Nat.size_le]; decide +kernel
    · rw [Nat.succ_le_iff, Nat.lt_size]; decide +kernel
  have hk : (((2 ^ 521 - 1) * (2 ^ 127 - 1)).size - 1) / 8 + 1 = 81 := by rw [hsize]
  have hm : ([1#8] : List U8).length + 66 ≤ (((2 ^ 521 - 1) * (2 ^ 127 - 1)).size - 1) / 8 + 1 := by rw [hk]; decide
  obtain ⟨em, h1, _, h2⟩ := C53_encrypt_message exactCap_ok 13 ((2 ^ 521 - 1) * (2 ^ 127 - 1)) example_key.modulus_size
    example_key.e_size [1#8] hm
  refine ⟨_, h2, Nat.le_antisymm (hk ▸ C56_ciphertext_length exactCap_ok 13 _ example_key.modulus_size example_key.e_size
    [1#8] _ hm h2) ?_⟩
  have h3 := C53_rsa_padding [] [1#8] 81 (by decide) (by decide) (by simp)
  rw [hk] at h1
  rw [← h1] at h3
  have h4 : ((Model.Oaep.rsaPadding.encode [] [1#8] 81).toOption.map beVal).map (fun m => decide (256 ^ 80 ≤
      m ^ 13 % ((2 ^ 521 - 1) * (2 ^ 127 - 1)))) = some true := by decide +kernel
  rw [h3] at h4
  have h5 : 256 ^ 80 ≤ beVal em ^ 13 % ((2 ^ 521 - 1) * (2 ^ 127 - 1)) := by
    have h6 : some (decide (256 ^ 80 ≤ beVal em ^ 13 % ((2 ^ 521 - 1) * (2 ^ 127 - 1)))) = some true := h4
    injection h6 with h6
    exact of_decide_eq_true h6
  by_contra hc
  have h6 : (toBeBytes (big (beVal em ^ 13 % ((2 ^ 521 - 1) * (2 ^ 127 - 1))))).length ≤ 80 := by omega
  rw [Model.Oaep.length_toBeBytes, Model.Big.length_le_iff] at h6
  omega

/-- C51 to C54 applied to a small hash function: the number of bytes and their sum. -/
def toyHash (m : List U8) : Vector U8 2 := #v[BitVec.ofNat 8 m.length, m.foldl (· + ·) 0#8]
theorem toy_computes : Computes (fun m => .ok (toyHash m)) toyHash 1000 := fun _ _ => rfl
example : Model.Oaep.mgf1 (fun m => .ok (toyHash m)) [7#8, 8#8] 5 = .ok [6#8, 15#8, 6#8, 16#8, 6#8] := by
  rw [C51_mgf1 _ _ _ toy_computes (by decide) [7#8, 8#8] 5 (by decide) (by decide) (by decide)]
  decide +kernel
example : Model.Oaep.mgf1 (fun m => .ok (toyHash m)) [7#8, 8#8] (2 ^ 33 + 1) = .error .overflow :=
  C51_mgf1_too_long _ _ _ toy_computes (by decide) _ _ (by decide) (by norm_num) (by norm_num)
example : ∃ em, Model.Oaep.encode (fun m => .ok (toyHash m)) [1#8] [5#8, 6#8] 10 = .ok em ∧ em.length = 10 ∧
    em.head? = some 0#8 ∧ em = Spec.Oaep.encode toyHash (List.replicate 2 42#8) [1#8] [5#8, 6#8] 10 :=
  C53_encode _ _ _ toy_computes (by decide) _ _ _ (by decide) (by decide) (by decide) (by decide) (by decide)
example : Model.Oaep.encode (fun m => .ok (toyHash m)) [1#8] [5#8, 6#8] 7 = .error .explicit :=
  C52_encode_panics _ _ _ toy_computes _ _ _ (by decide) (by decide)
example : (do
    Model.Oaep.decode (fun m => .ok (toyHash m)) [1#8]
      (← Model.Oaep.encode (fun m => .ok (toyHash m)) [1#8] [5#8, 6#8] 10) 10) = .ok (.ok [5#8, 6#8]) :=
  C52_roundtrip _ _ _ toy_computes (by decide) _ _ _ (by decide) (by decide) (by decide) (by decide) (by decide)
/-- Another seed than 42, 42 is accepted, too. -/
example : Model.Oaep.decode (fun m => .ok (toyHash m)) [1#8] (Spec.Oaep.encode toyHash [3#8, 4#8] [1#8] [5#8, 6#8] 10) 10 =
    .ok (.ok [5#8, 6#8]) :=
  (C54_decode_iff _ _ _ toy_computes (by decide) _ _ _ 10 (by decide +kernel) (by decide) (by decide) (by decide) (by decide)
    (by decide)).2 ⟨[3#8, 4#8], rfl, by decide, rfl⟩
example : ∃ r, Model.Oaep.decode (fun m => .ok (toyHash m)) [1#8] (List.replicate 10 9#8) 10 = .ok r :=
  C54_decode_no_panic _ _ _ toy_computes (by decide) _ _ 10 rfl (by decide) (by decide) (by decide) (by decide) (by decide)
example : (∃ p, Model.Oaep.decode (fun m => .ok (toyHash m)) [1#8] (List.replicate 9 0#8) 10 = .error p) ∧
    ¬ ∃ p, Model.Oaep.decode (fun m => .ok (toyHash m)) [1#8] (List.replicate 9 5#8) 10 = .error p := by
  rw [C54_decode_panics_iff _ _ _ toy_computes (by decide) [1#8] _ 10 (by decide) (by decide) (by decide) (by decide)
      (by decide) (by decide), C54_decode_panics_iff _ _ _ toy_computes (by decide) [1#8] _ 10 (by decide) (by decide) (by decide)
      (by decide) (by decide) (by decide)]
  decide
/-- Two labels with the same hash: the second is accepted, as `C54_wrong_label` says it may be. -/
example : Model.Oaep.decode (fun m => .ok (toyHash m)) [2#8, 1#8] (Spec.Oaep.encode toyHash [3#8, 4#8] [1#8, 2#8] [5#8] 10) 10 =
      .ok (.ok [5#8]) ∧ toyHash [2#8, 1#8] = toyHash [1#8, 2#8] := by
  have h : Model.Oaep.decode (fun m => .ok (toyHash m)) [2#8, 1#8] (Spec.Oaep.encode toyHash [3#8, 4#8] [1#8, 2#8] [5#8] 10) 10 =
      .ok (.ok [5#8]) := by decide +kernel
  exact ⟨h, (C54_wrong_label _ _ _ toy_computes (by decide) _ _ _ _ _ 10 rfl (by decide) (by decide) (by decide) (by decide)
    (by decide) h).1⟩
example : (do Model.Oaep.rsaPadding.decode [] (← Model.Oaep.rsaPadding.encode [] [5#8, 6#8] 81) 81) = .ok (.ok [5#8, 6#8]) :=
  C52_rsa_padding [] _ 81 (by decide) (by decide) (by simp)
/-- C53, C55, C71, C72 and C73 applied to the key of the example. -/
example : encryptMessage exactCap ⟨big 13, big ((2 ^ 521 - 1) * (2 ^ 127 - 1))⟩ (List.replicate 16 7#8) Model.Oaep.rsaPadding =
    .error .explicit :=
  C53_encrypt_message_too_long 13 _ (by decide +kernel) example_key.modulus_size _ (by rw [example_bytes]; decide)
example : encryptMessage exactCap ⟨big 13, big ((2 ^ 521 - 1) * (2 ^ 127 - 1))⟩ [1#8] Model.Oaep.rsaPadding =
    .ok (toBeBytes (big (beVal (Spec.Oaep.encode sha256Digest (List.replicate 32 42#8) [] [1#8] 81) ^ 13 %
      ((2 ^ 521 - 1) * (2 ^ 127 - 1))))) := by
  have := C55_false exactCap_ok 13 _ example_key.modulus_size example_key.e_size [1#8] (by rw [example_bytes]; decide)
  rwa [example_bytes] at this
example : ∃ ct, encryptMessage exactCap ⟨big 13, big ((2 ^ 521 - 1) * (2 ^ 127 - 1))⟩ [1#8] Model.Oaep.rsaPadding = .ok ct ∧
    ∀ guess : List U8, guess.length ≤ 15 →
      (encryptMessage exactCap ⟨big 13, big ((2 ^ 521 - 1) * (2 ^ 127 - 1))⟩ guess Model.Oaep.rsaPadding = .ok ct ↔
        guess = [1#8]) := by
  obtain ⟨ct, h, -⟩ := example_message
  exact ⟨ct, h, fun guess hg => C72_guess exactCap_ok _ _ 13 exampleD example_key [1#8] guess ct (by rw [example_bytes]; decide)
    (by rw [example_bytes]; omega) h⟩
example : ∃ ct m, decryptMessage exactCap ⟨big exampleD, big ((2 ^ 521 - 1) * (2 ^ 127 - 1))⟩ ct Model.Oaep.rsaPadding = .ok m ∧
    ∃ seed, seed.length = 32 ∧ beVal ct ^ exampleD % ((2 ^ 521 - 1) * (2 ^ 127 - 1)) =
      beVal (Spec.Oaep.encode sha256Digest seed [] m ct.length) := by
  obtain ⟨ct, h, hl⟩ := example_message
  have hd := C56_roundtrip_partial exactCap_ok _ _ 13 exampleD example_key [1#8] ct (by rw [example_bytes]; decide) h
    (by rw [example_bytes, hl])
  exact ⟨ct, [1#8], hd, ((C73_decrypt_iff exactCap_ok exampleD _ (by decide +kernel) example_key.modulus_size example_key.d_size
    ct [1#8] (by omega)).1 hd).2⟩
/-- A ciphertext that another program has made, with a seed that is not constant. -/
example : ∃ ct, ct.length = 81 ∧ beVal ct = beVal (Spec.Oaep.encode sha256Digest ((List.range 32).map (BitVec.ofNat 8)) [] [1#8] 81)
      ^ 13 % ((2 ^ 521 - 1) * (2 ^ 127 - 1)) ∧
    decryptMessage exactCap ⟨big exampleD, big ((2 ^ 521 - 1) * (2 ^ 127 - 1))⟩ ct Model.Oaep.rsaPadding = .ok [1#8] := by
  generalize hx : beVal (Spec.Oaep.encode sha256Digest ((List.range 32).map (BitVec.ofNat 8)) [] [1#8] 81) ^ 13 %
    ((2 ^ 521 - 1) * (2 ^ 127 - 1)) = x
  have hlt : x < 256 ^ 81 := by
    rw [← hx]
    exact Nat.lt_of_lt_of_le (Nat.mod_lt _ (by decide +kernel)) (by decide +kernel)
  have hl : (natToBE 81 x).length = 81 := by simp [natToBE, length_natToLE]
  have hv : beVal (natToBE 81 x) = x := by rw [beVal_natToBE, Nat.mod_eq_of_lt hlt]
  exact ⟨natToBE 81 x, hl, hv, C71_decrypt_rfc8017 exactCap_ok _ _ 13 exampleD example_key
    ((List.range 32).map (BitVec.ofNat 8)) [1#8] (by simp) 81 example_bytes.symm (by decide) _ hl (by rw [hv, hx])⟩

end Verif.Props
