import Verif.Proof.Keys
import Verif.Props.Pem
import Verif.Props.Oaep

/-! # C65–C67, C77, C78: RSA keys in PEM -/

namespace Verif.Props
open Verif Verif.Model.Pem Verif.Model.Rsa Verif.Spec.Asn1 Verif.Spec.Big Verif.Spec.Keys
open Verif.Spec.Pem (Plain trimmedLines beginLine endLine)

theorem privateLabel_eq : privateLabel = "PRIVATE KEY".toList := by decide +kernel
theorem publicLabel_eq : publicLabel = "PUBLIC KEY".toList := by decide +kernel

/-! ## C65 -/

/-- C65: the PKCS#8 encoding of a private key gives its modulus and its private exponent. The numbers are arbitrary: nothing
is checked about them. -/
theorem C65_private_key (k : RsaKey) (h : (der (privateKeyInfo k)).length < 2 ^ 64) :
    privateKeyTryFrom ⟨"PRIVATE KEY".toList, der (privateKeyInfo k)⟩ = .ok (.ok ⟨big k.n, big k.d⟩) :=
  (private_ok_iff _ _).2 ⟨privateLabel_eq.symm, k.n, k.d, isPrivate_der k h, rfl⟩

/-- C65: the same from any PEM text of it. -/
theorem C65_private_key_text (k : RsaKey) (h : (der (privateKeyInfo k)).length < 2 ^ 64) (text : List Char)
    (pre body post : List (List Char))
    (ht : trimmedLines text = pre ++ [beginLine "PRIVATE KEY".toList] ++ body ++ [endLine "PRIVATE KEY".toList] ++ post)
    (h1 : Plain pre) (h2 : Plain body) (h3 : Plain post)
    (hb : body.flatten = Spec.Base64.encode (der (privateKeyInfo k))) :
    ∃ pem, decodePem text = .ok pem ∧ privateKeyTryFrom pem = .ok (.ok ⟨big k.n, big k.d⟩) :=
  ⟨⟨"PRIVATE KEY".toList, der (privateKeyInfo k)⟩, (C62_ok_iff _ _).2 ⟨pre, body, post, ht, h1, h2, h3, hb⟩, C65_private_key k h⟩

/-- A 12-bit key; the encoding, and a check against bytes written by hand. -/
def smallKey : RsaKey := ⟨3233, 17, 2753, 61, 53, 53, 49, 38⟩
example : der (privateKeyInfo smallKey) =
    [48#8, 51#8, 2#8, 1#8, 0#8, 48#8, 13#8, 6#8, 9#8, 42#8, 134#8, 72#8, 134#8, 247#8, 13#8, 1#8, 1#8, 1#8, 5#8, 0#8, 4#8, 31#8,
     48#8, 29#8, 2#8, 1#8, 0#8, 2#8, 2#8, 12#8, 161#8, 2#8, 1#8, 17#8, 2#8, 2#8, 10#8, 193#8, 2#8, 1#8, 61#8, 2#8, 1#8, 53#8,
     2#8, 1#8, 53#8, 2#8, 1#8, 49#8, 2#8, 1#8, 38#8] := by decide +kernel
example : (der (privateKeyInfo smallKey)).length < 2 ^ 64 := by decide +kernel
example : Spec.Big.val (big 3233) = 3233 ∧ (big 3233).bytes = [161#8, 12#8] := by decide +kernel

/-! ## C66 -/

/-- C66: the SubjectPublicKeyInfo encoding of a public key gives its modulus and its exponent. -/
theorem C66_public_key (n e : Nat) (h : (der (subjectPublicKeyInfo n e)).length < 2 ^ 64) :
    publicKeyTryFrom ⟨"PUBLIC KEY".toList, der (subjectPublicKeyInfo n e)⟩ = .ok (.ok ⟨big n, big e⟩) :=
  (public_ok_iff _ _).2 ⟨publicLabel_eq.symm, n, e, isPublic_der n e h, rfl⟩

/-- C66: the same from any PEM text of it. -/
theorem C66_public_key_text (n e : Nat) (h : (der (subjectPublicKeyInfo n e)).length < 2 ^ 64) (text : List Char)
    (pre body post : List (List Char))
    (ht : trimmedLines text = pre ++ [beginLine "PUBLIC KEY".toList] ++ body ++ [endLine "PUBLIC KEY".toList] ++ post)
    (h1 : Plain pre) (h2 : Plain body) (h3 : Plain post)
    (hb : body.flatten = Spec.Base64.encode (der (subjectPublicKeyInfo n e))) :
    ∃ pem, decodePem text = .ok pem ∧ publicKeyTryFrom pem = .ok (.ok ⟨big n, big e⟩) :=
  ⟨⟨"PUBLIC KEY".toList, der (subjectPublicKeyInfo n e)⟩, (C62_ok_iff _ _).2 ⟨pre, body, post, ht, h1, h2, h3, hb⟩,
    C66_public_key n e h⟩

example : der (subjectPublicKeyInfo 3233 17) =
    [48#8, 27#8, 48#8, 13#8, 6#8, 9#8, 42#8, 134#8, 72#8, 134#8, 247#8, 13#8, 1#8, 1#8, 1#8, 5#8, 0#8, 3#8, 10#8, 0#8, 48#8, 7#8,
     2#8, 2#8, 12#8, 161#8, 2#8, 1#8, 17#8] := by decide +kernel
/-- The text conditions are met by a concrete text. -/
example : trimmedLines "-----BEGIN PUBLIC KEY-----\nMBswDQYJKoZIhvcNAQEBBQADCgAwBwICDKECARE=\n-----END PUBLIC KEY-----\n".toList =
    [] ++ [beginLine "PUBLIC KEY".toList] ++ ["MBswDQYJKoZIhvcNAQEBBQADCgAwBwICDKECARE=".toList] ++
      [endLine "PUBLIC KEY".toList] ++ [[]] ∧
    Plain ["MBswDQYJKoZIhvcNAQEBBQADCgAwBwICDKECARE=".toList] ∧ Plain [[]] ∧
    ["MBswDQYJKoZIhvcNAQEBBQADCgAwBwICDKECARE=".toList].flatten = Spec.Base64.encode (der (subjectPublicKeyInfo 3233 17)) := by
  decide +kernel

/-! ## C67 -/

/-- C67: a private key is accepted exactly if the label is PRIVATE KEY and the data is a PKCS#8 structure for RSA
(`IsPrivate` in the specification); the result has the numbers found there. -/
theorem C67_private_iff (pem : PEM) (k : PrivateKey) : privateKeyTryFrom pem = .ok (.ok k) ↔
    pem.label = "PRIVATE KEY".toList ∧ ∃ n d, IsPrivate pem.data n d ∧ k = ⟨big n, big d⟩ := by
  rw [← privateLabel_eq]
  exact private_ok_iff pem k

/-- C67: a public key is accepted exactly if the label is PUBLIC KEY and the data is a SubjectPublicKeyInfo for RSA. -/
theorem C67_public_iff (pem : PEM) (k : PublicKey) : publicKeyTryFrom pem = .ok (.ok k) ↔
    pem.label = "PUBLIC KEY".toList ∧ ∃ n e, IsPublic pem.data n e ∧ k = ⟨big n, big e⟩ := by
  rw [← publicLabel_eq]
  exact public_ok_iff pem k

/-- C67: nothing is accepted as both. -/
theorem C67_not_both (pem : PEM) (k : PrivateKey) (l : PublicKey) (h : privateKeyTryFrom pem = .ok (.ok k)) :
    publicKeyTryFrom pem ≠ .ok (.ok l) := by
  intro h2
  have h3 := ((private_ok_iff pem k).1 h).1
  rw [((public_ok_iff pem l).1 h2).1] at h3
  exact absurd h3 (by decide)

/-- C67: not even the data alone can be read as both, whatever the label says. -/
theorem C67_data_not_both (label label' : List Char) (data : List U8) (k : PrivateKey) (l : PublicKey)
    (h : privateKeyTryFrom ⟨label, data⟩ = .ok (.ok k)) : publicKeyTryFrom ⟨label', data⟩ ≠ .ok (.ok l) := by
  intro h'
  obtain ⟨_, _, _, ⟨inner, v, _, _, _, _, _, _, _, _, h1, _⟩, _⟩ := (private_ok_iff _ k).1 h
  obtain ⟨_, _, _, ⟨inner', m', e', h1', _⟩, _⟩ := (public_ok_iff _ l).1 h'
  have := (Model.Asn1.tryFrom_ok_iff _ _).2 h1
  rw [(Model.Asn1.tryFrom_ok_iff _ _).2 h1'] at this
  have h2 := Except.ok.inj (Except.ok.inj this)
  simp at h2

example : IsPrivate (der (privateKeyInfo smallKey)) 3233 2753 := isPrivate_der smallKey (by decide +kernel)
example : IsPublic (der (subjectPublicKeyInfo 3233 17)) 3233 17 := isPublic_der 3233 17 (by decide +kernel)
/-- A private key under the label of a public one. -/
example : publicKeyTryFrom ⟨"PUBLIC KEY".toList, der (privateKeyInfo smallKey)⟩ = .ok (.error .expectedTwoElements) := by
  rfl

/-! ## C77 -/

/-- C77: the conversion to a private key panics exactly if the label is right and the ASN.1 parser panics on the data or, if
the outer structure is that of an RSA key, on the contents of its octet string. -/
theorem C77_private_panics_iff (pem : PEM) : (∃ p, privateKeyTryFrom pem = .error p) ↔ pem.label = "PRIVATE KEY".toList ∧
    (Panics pem.data ∨
      ∃ inner, Accepts pem.data (.sequence [.integer [0#8], algorithm, .octetString inner]) ∧ Panics inner) := by
  rw [← privateLabel_eq]
  exact private_panics_iff pem

/-- C77: likewise for public keys. -/
theorem C77_public_panics_iff (pem : PEM) : (∃ p, publicKeyTryFrom pem = .error p) ↔ pem.label = "PUBLIC KEY".toList ∧
    (Panics pem.data ∨ ∃ inner, Accepts pem.data (.sequence [algorithm, .bitString inner 0#8]) ∧ Panics inner) := by
  rw [← publicLabel_eq]
  exact public_panics_iff pem

example : ∃ p, publicKeyTryFrom ⟨"PUBLIC KEY".toList, [3#8, 0#8]⟩ = .error p := ⟨.index, by rfl⟩
/-- A panic inside the nested structure. -/
example : ∃ p, privateKeyTryFrom ⟨"PRIVATE KEY".toList,
    [48#8, 22#8, 2#8, 1#8, 0#8, 48#8, 13#8, 6#8, 9#8, 42#8, 134#8, 72#8, 134#8, 247#8, 13#8, 1#8, 1#8, 1#8, 5#8, 0#8, 4#8, 2#8,
     3#8, 0#8]⟩ = .error p := ⟨.index, by rfl⟩

/-! ## C78 -/

/-- C78: the two keys of a key pair, loaded from their standard encodings, undo each other on every number below the
modulus. -/
theorem C78_loaded_keys_roundtrip {cap : Nat → Nat} (hc : CapOk cap) (p q e d : Nat) (key : KeyPair p q e d) (k : RsaKey)
    (hkn : k.n = p * q) (hkd : k.d = d) (h1 : (der (privateKeyInfo k)).length < 2 ^ 64)
    (h2 : (der (subjectPublicKeyInfo (p * q) e)).length < 2 ^ 64) (m : Nat) (hm : m < p * q) :
    ∃ sk pk, privateKeyTryFrom ⟨"PRIVATE KEY".toList, der (privateKeyInfo k)⟩ = .ok (.ok sk) ∧
      publicKeyTryFrom ⟨"PUBLIC KEY".toList, der (subjectPublicKeyInfo (p * q) e)⟩ = .ok (.ok pk) ∧
      (do decrypt cap (.ofPrivate sk) (← encrypt cap (.ofPublic pk) (big m))) = .ok (big m) ∧
      (do decrypt cap (.ofPublic pk) (← encrypt cap (.ofPrivate sk) (big m))) = .ok (big m) := by
  refine ⟨_, _, C65_private_key k h1, C66_public_key _ e h2, ?_, ?_⟩ <;>
    simp only [RsaEncryption.ofPrivate, RsaEncryption.ofPublic, hkn, hkd]
  · exact C49_roundtrip_any_size hc p q e d m key.p_prime key.q_prime key.distinct key.inverse hm key.modulus_size key.e_size
      key.d_size
  · exact C49_roundtrip_any_size hc p q d e m key.p_prime key.q_prime key.distinct (by rw [Nat.mul_comm]; exact key.inverse) hm
      key.modulus_size key.d_size key.e_size

/-- C78: with the private key loaded from its standard encoding, every ciphertext made according to RFC 8017 for the public
key is decrypted to its message. -/
theorem C78_loaded_key_decrypts {cap : Nat → Nat} (hc : CapOk cap) (p q e d : Nat) (key : KeyPair p q e d) (k : RsaKey)
    (hkn : k.n = p * q) (hkd : k.d = d) (h1 : (der (privateKeyInfo k)).length < 2 ^ 64)
    (seed message : List U8) (hs : seed.length = 32) (len : Nat) (hlen : len = ((p * q).size - 1) / 8 + 1)
    (hm : message.length + 66 ≤ len) (ct : List U8) (hct : ct.length = len)
    (hval : beVal ct = beVal (Spec.Oaep.encode sha256Digest seed [] message len) ^ e % (p * q)) :
    ∃ sk, privateKeyTryFrom ⟨"PRIVATE KEY".toList, der (privateKeyInfo k)⟩ = .ok (.ok sk) ∧
      decryptMessage cap (.ofPrivate sk) ct Model.Oaep.rsaPadding = .ok message := by
  refine ⟨_, C65_private_key k h1, ?_⟩
  simp only [RsaEncryption.ofPrivate, hkn, hkd]
  exact C71_decrypt_rfc8017 hc p q e d key seed message hs len hlen hm ct hct hval

/-- A key pair that is long enough for C78, in the standard encodings. -/
def longKey : RsaKey := ⟨(2 ^ 521 - 1) * (2 ^ 127 - 1), 13, exampleD, 2 ^ 521 - 1, 2 ^ 127 - 1, 0, 0, 0⟩
example : KeyPair (2 ^ 521 - 1) (2 ^ 127 - 1) 13 exampleD ∧ longKey.n = (2 ^ 521 - 1) * (2 ^ 127 - 1) ∧ longKey.d = exampleD :=
  ⟨example_key, rfl, rfl⟩
example : (der (privateKeyInfo longKey)).length < 2 ^ 64 ∧
    (der (subjectPublicKeyInfo ((2 ^ 521 - 1) * (2 ^ 127 - 1)) 13)).length < 2 ^ 64 := by
  decide +kernel

/-- C65 and C78 applied: the file of the small key, and the two files of the long key. -/
example : privateKeyTryFrom ⟨"PRIVATE KEY".toList, der (privateKeyInfo smallKey)⟩ = .ok (.ok ⟨big 3233, big 2753⟩) :=
  C65_private_key smallKey (by decide +kernel)
example : ∃ sk pk, privateKeyTryFrom ⟨"PRIVATE KEY".toList, der (privateKeyInfo longKey)⟩ = .ok (.ok sk) ∧
    publicKeyTryFrom ⟨"PUBLIC KEY".toList, der (subjectPublicKeyInfo ((2 ^ 521 - 1) * (2 ^ 127 - 1)) 13)⟩ = .ok (.ok pk) ∧
    (do decrypt exactCap (.ofPrivate sk) (← encrypt exactCap (.ofPublic pk) (big 42))) = .ok (big 42) := by
  obtain ⟨sk, pk, h1, h2, h3, -⟩ := C78_loaded_keys_roundtrip exactCap_ok _ _ 13 exampleD example_key longKey rfl rfl
    (by decide +kernel) (by decide +kernel) 42 (by decide +kernel)
  exact ⟨sk, pk, h1, h2, h3⟩

end Verif.Props
