import Verif.Proof.ReleaseHash
import Verif.Proof.ReleaseRsa

/-! # C101–C105: the code compiled without overflow checks

Cargo's `dev` and `test` profiles compile `+`, `-`, `*` so that they panic when the result does not fit; the `release`
profile makes them wrap around. The theorems C01–C100 are about the checked code. The ones below say what the unchecked code
(`Model.Release`) does: it differs from the checked code only where that one panics because of an overflow (C101), and there
it may return the right value (C102), panic all the same (C103, C105) or return something wrong (C104, C105). -/

namespace Verif.Props
open Verif Verif.Spec.Release Verif.Spec.Big
open _root_.Verif.Model.Big (BigUint)

/-! ## C101 -/

/-- What `Agree` gives a user: a value returned by the checked code is returned by the unchecked code. -/
theorem C101_value {α : Type} {checked unchecked : R α} (h : Agree checked unchecked) (v : α) (hv : checked = .ok v) :
    unchecked = .ok v := by
  rcases h with h | h
  · rw [h] at hv; cases hv
  · rw [← h, hv]

/-- What `Agree` gives a user: a panic of the checked code other than an overflow is a panic of the unchecked code. -/
theorem C101_panic {α : Type} {checked unchecked : R α} (h : Agree checked unchecked) (e : Panic) (he : e ≠ .overflow)
    (hv : checked = .error e) : unchecked = .error e := by
  rcases h with h | h
  · rw [h] at hv; injection hv with hv; exact absurd hv.symm he
  · rw [← h, hv]

/-- C101 for the hash functions. -/
theorem C101_hashes (m : List U8) :
    Agree (Model.Sha.sha1 m) (Model.Release.sha1 m) ∧ Agree (Model.Sha.sha224 m) (Model.Release.sha224 m) ∧
    Agree (Model.Sha.sha256 m) (Model.Release.sha256 m) ∧ Agree (Model.Md4.hash m) (Model.Release.md4 m) ∧
    Agree (Model.Md5.hash m) (Model.Release.md5 m) :=
  ⟨Model.Release.agree_sha1 m, Model.Release.agree_sha224 m, Model.Release.agree_sha256 m, Model.Release.agree_md4 m,
    Model.Release.agree_md5 m⟩

/-- C101 for RC2 keys and PKCS#7 padding. -/
theorem C101_rc2 (key : List U8) (bits : U16) : Agree (Model.Rc2.fromKey key bits) (Model.Release.fromKey key bits) :=
  Model.Release.agree_fromKey key bits
theorem C101_pkcs_unpad (N : Nat) (block : Vector U8 N) :
    Agree (Model.Pad.pkcsUnpad N block) (Model.Release.pkcsUnpad N block) := Model.Release.agree_pkcsUnpad N block

/-- C101 for ASN.1 and key files. -/
theorem C101_asn1 (bytes : List U8) : Agree (Model.Asn1.tryFrom bytes) (Model.Release.tryFrom bytes) :=
  Model.Release.agree_tryFrom bytes
theorem C101_keys (pem : Model.Pem.PEM) :
    Agree (Model.Pem.privateKeyTryFrom pem) (Model.Release.privateKeyTryFrom pem) ∧
    Agree (Model.Pem.publicKeyTryFrom pem) (Model.Release.publicKeyTryFrom pem) :=
  ⟨Model.Release.agree_privateKeyTryFrom pem, Model.Release.agree_publicKeyTryFrom pem⟩

/-- C101 for big numbers (`CapReal`: no vector has a capacity above `isize::MAX`). -/
theorem C101_big {cap : Nat → Nat} (hc : CapReal cap) (x y : BigUint) (i : Nat) :
    Agree (Model.Big.bitsUsed x) (Model.Release.bitsUsed x) ∧ Agree (Model.Big.isSet x i) (Model.Release.isSet x i) ∧
    Agree (Model.Big.cmp x y) (Model.Release.cmp x y) ∧ Agree (Model.Big.sub cap x y) (Model.Release.sub cap x y) ∧
    Agree (Model.Big.rem cap x y) (Model.Release.rem cap x y) :=
  ⟨Model.Release.agree_bitsUsed x, Model.Release.agree_isSet x i, Model.Release.agree_cmp x y,
    Model.Release.agree_subAssign hc x y, Model.Release.agree_rem hc x y⟩

/-- C101 for RSA on numbers and for key generation. -/
theorem C101_rsa {cap : Nat → Nat} (hc : CapReal cap) (key : Model.Rsa.RsaEncryption) (x : BigUint) :
    Agree (Model.Rsa.encrypt cap key x) (Model.Release.encrypt cap key x) ∧
    Agree (Model.Rsa.decrypt cap key x) (Model.Release.decrypt cap key x) :=
  ⟨Model.Release.agree_powMod hc _ _ _, Model.Release.agree_powMod hc _ _ _⟩
theorem C101_create_keys (p q e : BigUint) : Agree (Model.Rsa.createKeys p q e) (Model.Release.createKeys p q e) :=
  Model.Release.agree_createKeys p q e

/-- C101 for OAEP padding and RSA on messages. -/
theorem C101_padding (label m : List U8) (len : Nat) :
    Agree (Model.Oaep.rsaPadding.encode label m len) (Model.Release.rsaPadding.encode label m len) ∧
    Agree (Model.Oaep.rsaPadding.decode label m len) (Model.Release.rsaPadding.decode label m len) :=
  ⟨Model.Release.agree_encode Model.Release.agree_sha256 label m len,
    Model.Release.agree_decode Model.Release.agree_sha256 label m len⟩
theorem C101_messages {cap : Nat → Nat} (hc : CapReal cap) (key : Model.Rsa.RsaEncryption) (m : List U8) :
    Agree (Model.Rsa.encryptMessage cap key m Model.Oaep.rsaPadding)
      (Model.Release.encryptMessage cap key m Model.Release.rsaPadding) ∧
    Agree (Model.Rsa.decryptMessage cap key m Model.Oaep.rsaPadding)
      (Model.Release.decryptMessage cap key m Model.Release.rsaPadding) :=
  ⟨Model.Release.agree_encryptMessage hc key m _ _ fun l m n => (C101_padding l m n).1,
    Model.Release.agree_decryptMessage hc key m _ _ fun l m n => (C101_padding l m n).2⟩

/-- A capacity function that meets both hypotheses used here. -/
def capExample : Nat → Nat := fun n => min n (2 ^ 28 + 1)

example : CapReal capExample ∧ CapOk capExample := by
  unfold CapReal CapOk capExample
  exact ⟨fun n => by omega, fun n hn => by omega⟩

/-- Both kinds of checked outcome occur: values, overflows, other panics. -/
example : (∃ k, Model.Rsa.createKeys ⟨[61#8]⟩ ⟨[53#8]⟩ ⟨[17#8]⟩ = .ok k ∧
      Model.Release.createKeys ⟨[61#8]⟩ ⟨[53#8]⟩ ⟨[17#8]⟩ = .ok k) ∧
    Model.Rc2.fromKey [] 8#16 = .error .overflow ∧
    Model.Asn1.tryFrom [3#8, 0#8] = .error .index ∧ Model.Release.tryFrom [3#8, 0#8] = .error .index := by
  refine ⟨⟨(⟨⟨[0xa1#8, 0x0c#8]⟩, ⟨[0x9d#8, 0x01#8]⟩⟩, ⟨⟨[0xa1#8, 0x0c#8]⟩, ⟨[17#8]⟩⟩), by decide +kernel, by decide +kernel⟩,
    by decide +kernel, rfl, rfl⟩

/-! ## C102 -/

/-- C102: without overflow checks, SHA-1, SHA-224, SHA-256, MD4 and MD5 return the standard's digest for messages of every
length: the bit count in the padding is taken modulo 2^64, which is what RFC 1320 and RFC 1321 ask for. -/
theorem C102_sha1 (m : List U8) : ∃ d, Model.Release.sha1 m = .ok d ∧ d.toList = Spec.Sha.sha1 m :=
  Model.Release.sha1_eq m
theorem C102_sha224 (m : List U8) : ∃ d, Model.Release.sha224 m = .ok d ∧ d.toList = Spec.Sha.sha224 m :=
  Model.Release.sha224_eq m
theorem C102_sha256 (m : List U8) : ∃ d, Model.Release.sha256 m = .ok d ∧ d.toList = Spec.Sha.sha256 m :=
  Model.Release.sha256_eq m
theorem C102_md4 (m : List U8) : ∃ d, Model.Release.md4 m = .ok d ∧ d.toList = Spec.Md.md4 m := Model.Release.md4_eq m
theorem C102_md5 (m : List U8) : ∃ d, Model.Release.md5 m = .ok d ∧ d.toList = Spec.Md.md5 m := Model.Release.md5_eq m

/-- The checked code panics for the long messages (2^61 bytes), so the two really differ there. -/
example (m : List U8) (hm : 2 ^ 61 ≤ m.length) :
    Model.Sha.sha256 m = .error .overflow ∧ ∃ d, Model.Release.sha256 m = .ok d :=
  ⟨(C26_too_long m hm).1, (C102_sha256 m).imp fun _ h => h.1⟩
example : ∃ m : List U8, 2 ^ 61 ≤ m.length := by
  generalize 2 ^ 61 = n
  exact ⟨List.replicate n 0#8, by rw [List.length_replicate]⟩

/-- "abc" (RFC 1321, A.5). -/
example : Model.Release.md5 [0x61#8, 0x62#8, 0x63#8] = .ok #v[0x90#8, 0x01#8, 0x50#8, 0x98#8, 0x3c#8, 0xd2#8, 0x4f#8, 0xb0#8,
    0xd6#8, 0x96#8, 0x3f#8, 0x7d#8, 0x28#8, 0xe1#8, 0x7f#8, 0x72#8] := by decide +kernel

/-! ## C103 -/

/-- C103: without overflow checks, parsing ASN.1 gives the same results, errors and panics; where the checked code panics
because of an overflow (a length field of more than 16 bytes) the unchecked code panics because of an index. -/
theorem C103_asn1 (bytes : List U8) :
    Model.Release.tryFrom bytes = overflowBecomes .index (Model.Asn1.tryFrom bytes) := Model.Release.rel_tryFrom bytes

/-- C103 for private and public keys in PEM files. -/
theorem C103_private_key (pem : Model.Pem.PEM) :
    Model.Release.privateKeyTryFrom pem = overflowBecomes .index (Model.Pem.privateKeyTryFrom pem) :=
  Model.Release.rel_privateKeyTryFrom pem
theorem C103_public_key (pem : Model.Pem.PEM) :
    Model.Release.publicKeyTryFrom pem = overflowBecomes .index (Model.Pem.publicKeyTryFrom pem) :=
  Model.Release.rel_publicKeyTryFrom pem

/-- C103 for RC2 keys (an empty key, or more than 1024 effective bits). -/
theorem C103_rc2 (key : List U8) (bits : U16) :
    Model.Release.fromKey key bits = overflowBecomes .index (Model.Rc2.fromKey key bits) := Model.Release.rel_fromKey key bits

/-- C103 for the removal of PKCS#7 padding (blocks of length 0). -/
theorem C103_pkcs_unpad (N : Nat) (block : Vector U8 N) :
    Model.Release.pkcsUnpad N block = overflowBecomes .index (Model.Pad.pkcsUnpad N block) :=
  Model.Release.rel_pkcsUnpad N block

/-- So the two profiles accept the same key files and produce the same keys. -/
theorem C103_same_keys (pem : Model.Pem.PEM) (k : Model.Rsa.PrivateKey) :
    Model.Release.privateKeyTryFrom pem = .ok (.ok k) ↔ Model.Pem.privateKeyTryFrom pem = .ok (.ok k) := by
  rw [C103_private_key]
  unfold overflowBecomes
  split
  · rename_i h; rw [h]; constructor <;> intro h <;> cases h
  · rfl

example : Model.Asn1.tryFrom (4#8 :: 0x91#8 :: List.replicate 17 0#8) = .error .overflow ∧
    Model.Release.tryFrom (4#8 :: 0x91#8 :: List.replicate 17 0#8) = .error .index ∧
    Model.Rc2.fromKey [1#8] 1025#16 = .error .overflow ∧ Model.Release.fromKey [1#8] 1025#16 = .error .index ∧
    Model.Rc2.fromKey [] 8#16 = .error .overflow ∧ Model.Release.fromKey [] 8#16 = .error .index := by
  refine ⟨rfl, rfl, by decide +kernel, by decide +kernel, by decide +kernel, by decide +kernel⟩

/-! ## C104 -/

/-- C104: without overflow checks, key generation with a product `p * q` of 2^128 or more does not panic for want of room
(`C48_create_keys_too_big`): whatever keys it returns have the modulus `p * q mod 2^128`. -/
theorem C104_modulus (p q e : Nat) (sk : Model.Rsa.PrivateKey) (pk : Model.Rsa.PublicKey)
    (h : Model.Release.createKeys (big p) (big q) (big e) = .ok (sk, pk)) :
    sk.n = big (p * q % 2 ^ 128) ∧ pk.n = big (p * q % 2 ^ 128) ∧ pk.e = big e := by
  obtain ⟨-, -, -, d, -, rfl, rfl⟩ := Model.Release.createKeys_inv p q e sk pk h
  exact ⟨rfl, rfl, rfl⟩

/-- C104: such keys lose messages. A number `m < p * q` that is not below the wrong modulus does not come back. -/
theorem C104_no_roundtrip {cap : Nat → Nat} (hc : CapOk cap) (hr : CapReal cap) (p q e m : Nat)
    (sk : Model.Rsa.PrivateKey) (pk : Model.Rsa.PublicKey)
    (h : Model.Release.createKeys (big p) (big q) (big e) = .ok (sk, pk)) (hn : 2 ≤ p * q % 2 ^ 128)
    (hm : p * q % 2 ^ 128 ≤ m) (hms : m < p * q) :
    ∃ m', (do Model.Release.decrypt cap (.ofPrivate sk) (← Model.Release.encrypt cap (.ofPublic pk) (big m))) = .ok (big m') ∧
      m' ≠ m := by
  obtain ⟨hp, hq, he, d, hd, rfl, rfl⟩ := Model.Release.createKeys_inv p q e sk pk h
  have hs : ∀ x, x < 2 ^ 128 → x.size ≤ 128 := fun x hx => Nat.size_le.2 hx
  have hn128 : p * q % 2 ^ 128 < 2 ^ 128 := Nat.mod_lt _ (by norm_num)
  have hms' : m.size ≤ 256 := Nat.size_le.2 (hms.trans (by
    calc p * q < 2 ^ 128 * 2 ^ 128 := Nat.mul_lt_mul'' hp hq
      _ = 2 ^ 256 := by norm_num))
  have h1 := Model.Release.powMod_ok hc hr m e (p * q % 2 ^ 128) hn ((hs _ hn128).trans (by norm_num))
    (hms'.trans (by norm_num)) ((hs _ he).trans (by norm_num))
  have hlt : m ^ e % (p * q % 2 ^ 128) < p * q % 2 ^ 128 := Nat.mod_lt _ (by omega)
  have h2 := Model.Release.powMod_ok hc hr (m ^ e % (p * q % 2 ^ 128)) d (p * q % 2 ^ 128) hn
    ((hs _ hn128).trans (by norm_num)) ((hs _ (hlt.trans hn128)).trans (by norm_num)) ((hs _ hd).trans (by norm_num))
  refine ⟨(m ^ e % (p * q % 2 ^ 128)) ^ d % (p * q % 2 ^ 128), ?_, ?_⟩
  · simp only [Model.Release.encrypt, Model.Release.decrypt, Model.Rsa.RsaEncryption.ofPrivate,
      Model.Rsa.RsaEncryption.ofPublic, h1, h2, bind, Except.bind]
  · have : (m ^ e % (p * q % 2 ^ 128)) ^ d % (p * q % 2 ^ 128) < p * q % 2 ^ 128 := Nat.mod_lt _ (by omega)
    omega

/-- C104, a concrete case: for `p = 2^64 + 13`, `q = 2^64 + 37` and `e = 65537` the unchecked code returns keys (the checked
code panics), -/
theorem C104_example_keys : Model.Release.createKeys (big (2 ^ 64 + 13)) (big (2 ^ 64 + 37)) (big 65537) =
      .ok (⟨big 922337203685477581281, big 208448179885849752473⟩, ⟨big 922337203685477581281, big 65537⟩) ∧
    Model.Rsa.createKeys (big (2 ^ 64 + 13)) (big (2 ^ 64 + 37)) (big 65537) = .error .overflow := by
  constructor
  · decide +kernel
  · exact C48_create_keys_too_big _ _ _ (by norm_num) (by norm_num) (by norm_num) (by norm_num)

/-- and with these keys even the message 2 does not come back. -/
theorem C104_example_fails {cap : Nat → Nat} (hc : CapOk cap) (hr : CapReal cap) :
    ∃ sk pk, Model.Release.createKeys (big (2 ^ 64 + 13)) (big (2 ^ 64 + 37)) (big 65537) = .ok (sk, pk) ∧
      (do Model.Release.decrypt cap (.ofPrivate sk) (← Model.Release.encrypt cap (.ofPublic pk) (big 2))) =
        .ok (big 195989193484912483280) := by
  refine ⟨_, _, C104_example_keys.1, ?_⟩
  have hs : ∀ x, x < 2 ^ 128 → x.size ≤ 128 := fun x hx => Nat.size_le.2 hx
  have key : ∀ m e c, m < 2 ^ 128 → e < 2 ^ 128 → Model.Release.pm 922337203685477581281 128 m e = c →
      Model.Release.powMod cap (big m) (big e) (big 922337203685477581281) = .ok (big c) := by
    intro m e c hm he h
    rw [Model.Release.powMod_ok hc hr m e 922337203685477581281 (by norm_num) ((hs _ (by norm_num)).trans (by norm_num))
      ((hs _ hm).trans (by norm_num)) ((hs _ he).trans (by norm_num)), ← h,
      Model.Release.pm_eq _ 128 m e he]
  have h1 := key 2 65537 348317646280856185406 (by norm_num) (by norm_num) (by decide +kernel)
  have h2 := key 348317646280856185406 208448179885849752473 195989193484912483280 (by norm_num) (by norm_num) (by decide +kernel)
  simp only [Model.Release.encrypt, Model.Release.decrypt, Model.Rsa.RsaEncryption.ofPrivate,
    Model.Rsa.RsaEncryption.ofPublic, h1, h2, bind, Except.bind]

/-! ## C105 -/

/-- C105: without overflow checks, a subtraction that would panic because of an overflow (the subtrahend does not fit in the
capacity of the minuend) still panics, because the vector would get too long; all other subtractions are the same. -/
theorem C105_sub {cap : Nat → Nat} (hc : CapOk cap) (hr : CapReal cap) (a b : Nat) (ha : a.size ≤ 2 ^ 31) :
    Model.Release.sub cap (big a) (big b) = overflowBecomes .explicit (Model.Big.sub cap (big a) (big b)) :=
  Model.Release.rel_sub hc hr a b ha

/-- C105: `decrypt_message` still panics for a ciphertext shorter than the decrypted number. -/
theorem C105_decrypt_message {cap : Nat → Nat} (hc : CapOk cap) (hr : CapReal cap) (d n : Nat) (hn : 2 ≤ n)
    (hsn : n.size ≤ 2 ^ 31 - 8) (hsd : d.size ≤ 2 ^ 32 - 8) (ct : List U8) (hct : ct.length ≤ 2 ^ 28 - 1) :
    Model.Release.decryptMessage cap ⟨big d, big n⟩ ct Model.Release.rsaPadding =
      overflowBecomes .index (Model.Rsa.decryptMessage cap ⟨big d, big n⟩ ct Model.Oaep.rsaPadding) :=
  Model.Release.rel_decryptMessage hc hr d n hn hsn hsd ct hct

/-- So `decrypt_message` returns the same messages in both profiles. -/
theorem C105_same_messages {cap : Nat → Nat} (hc : CapOk cap) (hr : CapReal cap) (d n : Nat) (hn : 2 ≤ n)
    (hsn : n.size ≤ 2 ^ 31 - 8) (hsd : d.size ≤ 2 ^ 32 - 8) (ct m : List U8) (hct : ct.length ≤ 2 ^ 28 - 1) :
    Model.Release.decryptMessage cap ⟨big d, big n⟩ ct Model.Release.rsaPadding = .ok m ↔
      Model.Rsa.decryptMessage cap ⟨big d, big n⟩ ct Model.Oaep.rsaPadding = .ok m := by
  rw [C105_decrypt_message hc hr d n hn hsn hsd ct hct]
  unfold overflowBecomes
  split
  · rename_i h; rw [h]; constructor <;> intro h <;> cases h
  · rfl

/-- C105: the bit count of a number is taken modulo 2^32. -/
theorem C105_bits_used (n : Nat) : Model.Release.bitsUsed (big n) = .ok (n.size % 2 ^ 32) := Model.Release.bitsUsed_big n

/-- C105: so comparisons of numbers of 2^32 bits or more can be wrong: a number of 2^32 bits is "smaller" than every positive
number with fewer bits. -/
theorem C105_compare_wrong (a b : Nat) (ha : a.size = 2 ^ 32) (hb : 0 < b) (hb' : b.size < 2 ^ 32) :
    b < a ∧ Model.Release.cmp (big a) (big b) = .ok .lt := by
  have hs : 0 < b.size := Nat.size_pos.2 hb
  constructor
  · by_contra h
    have := Nat.size_le_size (Nat.le_of_not_lt h)
    omega
  · rw [Model.Release.cmp_big a b (by rw [ha, Nat.mod_self, Nat.mod_eq_of_lt hb']; omega), ha, Nat.mod_self,
      Nat.mod_eq_of_lt hb', Nat.compare_eq_lt.2 hs]

example : ∃ a : Nat, a.size = 2 ^ 32 := by
  obtain ⟨k, hk⟩ : ∃ k, k + 1 = 2 ^ 32 := ⟨2 ^ 32 - 1, by norm_num⟩
  exact ⟨2 ^ k, by rw [Nat.size_pow, hk]⟩
example : (1 : Nat).size < 2 ^ 32 := by rw [Nat.size_one]; norm_num

example : Model.Big.sub (fun n => n) (big 5) (big (2 ^ 24)) = .error .overflow ∧
    Model.Release.sub (fun n => n) (big 5) (big (2 ^ 24)) = .error .explicit := by
  constructor <;> decide +kernel

/-- C101, C104 and C105 applied. -/
theorem capExample_real : CapReal capExample := fun n => by unfold capExample; omega
theorem capExample_ok : CapOk capExample := fun n hn => by unfold capExample; omega
example : Model.Release.tryFrom [3#8, 0#8] = .error .index :=
  C101_panic (C101_asn1 [3#8, 0#8]) .index (by decide) rfl
example : Model.Release.decrypt capExample ⟨big 2753, big 3233⟩ (big 2790) = .ok (big 65) :=
  C101_value (C101_rsa capExample_real _ _).2 _ (by decide +kernel)
example : Agree (Model.Big.rem capExample (big 3233) (big 61)) (Model.Release.rem capExample (big 3233) (big 61)) :=
  (C101_big capExample_real (big 3233) (big 61) 0).2.2.2.2
example : ∃ (sk : Model.Rsa.PrivateKey) (pk : Model.Rsa.PublicKey),
    Model.Release.createKeys (big (2 ^ 64 + 13)) (big (2 ^ 64 + 37)) (big 65537) = .ok (sk, pk) ∧
    pk.n = big ((2 ^ 64 + 13) * (2 ^ 64 + 37) % 2 ^ 128) ∧
    ∃ m', (do Model.Release.decrypt capExample (.ofPrivate sk) (← Model.Release.encrypt capExample (.ofPublic pk) (big (2 ^ 127)))) =
      .ok (big m') ∧ m' ≠ 2 ^ 127 := by
  obtain ⟨sk, pk, h, -⟩ := C104_example_fails capExample_ok capExample_real
  exact ⟨sk, pk, h, (C104_modulus _ _ _ sk pk h).2.1, C104_no_roundtrip capExample_ok capExample_real _ _ _ _ sk pk h
    (by norm_num) (by norm_num) (by norm_num)⟩
example : Model.Release.sub capExample (big 5) (big (2 ^ 24)) =
    overflowBecomes .explicit (Model.Big.sub capExample (big 5) (big (2 ^ 24))) :=
  C105_sub capExample_ok capExample_real 5 _ (Nat.le_trans (Nat.size_le.2 (by norm_num : 5 < 2 ^ 3)) (by norm_num))
example : Model.Release.decryptMessage capExample ⟨big 2753, big 3233⟩ [1#8] Model.Release.rsaPadding =
      overflowBecomes .index (Model.Rsa.decryptMessage capExample ⟨big 2753, big 3233⟩ [1#8] Model.Oaep.rsaPadding) ∧
    ∀ m, Model.Release.decryptMessage capExample ⟨big 2753, big 3233⟩ [1#8] Model.Release.rsaPadding = .ok m ↔
      Model.Rsa.decryptMessage capExample ⟨big 2753, big 3233⟩ [1#8] Model.Oaep.rsaPadding = .ok m := by
  have hn : (3233 : Nat).size ≤ 12 := Nat.size_le.2 (by norm_num)
  have hd : (2753 : Nat).size ≤ 12 := Nat.size_le.2 (by norm_num)
  exact ⟨C105_decrypt_message capExample_ok capExample_real 2753 3233 (by norm_num) (by omega) (by omega) _ (by decide),
    fun m => C105_same_messages capExample_ok capExample_real 2753 3233 (by norm_num) (by omega) (by omega) _ m (by decide)⟩

end Verif.Props
