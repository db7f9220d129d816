import Verif.Spec.Asn1
import Verif.Spec.Big

/-! # RSA keys in PKCS#8 (RFC 5958, RFC 8017 appendix A.1.2) and SubjectPublicKeyInfo (RFC 5280, RFC 8017 appendix A.1.1) -/

namespace Verif.Spec.Keys
open Verif Verif.Model.Asn1 Verif.Spec.Asn1 Verif.Spec.Big

/-- The contents of a DER integer (X.690, 8.3) for a natural number: the fewest digits with a clear top bit. -/
def derInteger (n : Nat) : List U8 :=
  match beDigits n with
  | [] => [0#8]
  | b :: l => if 128 ≤ b.toNat then 0#8 :: b :: l else b :: l

/-- The object identifier 1.2.840.113549.1.1.1, `rsaEncryption`: the first byte is 40 * 1 + 2, the other numbers are written
in base 128 with the top bit marking all but the last digit. -/
def rsaEncryption : List U8 :=
  [BitVec.ofNat 8 (40 * 1 + 2)] ++ [BitVec.ofNat 8 (128 + 840 / 128), BitVec.ofNat 8 (840 % 128)] ++
    [BitVec.ofNat 8 (128 + 113549 / 128 / 128), BitVec.ofNat 8 (128 + 113549 / 128 % 128), BitVec.ofNat 8 (113549 % 128)] ++
    [1#8, 1#8, 1#8]

/-- `AlgorithmIdentifier` for RSA: the object identifier with null parameters. -/
def algorithm : Asn1 := .sequence [.objectIdentifier rsaEncryption, .null]

/-- The numbers of an RSA private key. -/
structure RsaKey where
  n : Nat
  e : Nat
  d : Nat
  p : Nat
  q : Nat
  dp : Nat
  dq : Nat
  qinv : Nat

/-- `RSAPrivateKey` with version 0 (two primes). -/
def rsaPrivateKey (k : RsaKey) : Asn1 :=
  .sequence [.integer [0#8], .integer (derInteger k.n), .integer (derInteger k.e), .integer (derInteger k.d),
    .integer (derInteger k.p), .integer (derInteger k.q), .integer (derInteger k.dp), .integer (derInteger k.dq),
    .integer (derInteger k.qinv)]

/-- `PrivateKeyInfo` (PKCS#8, without attributes). -/
def privateKeyInfo (k : RsaKey) : Asn1 :=
  .sequence [.integer [0#8], algorithm, .octetString (der (rsaPrivateKey k))]

/-- `RSAPublicKey`. -/
def rsaPublicKey (n e : Nat) : Asn1 := .sequence [.integer (derInteger n), .integer (derInteger e)]

/-- `SubjectPublicKeyInfo`. -/
def subjectPublicKeyInfo (n e : Nat) : Asn1 := .sequence [algorithm, .bitString (der (rsaPublicKey n e)) 0#8]

/-- `data` is a PKCS#8 structure that the program accepts, with the given modulus and private exponent: `Accepts` instead of
DER, version 0 outside, any one-byte version inside, and any nine integers, read as unsigned. -/
def IsPrivate (data : List U8) (n d : Nat) : Prop :=
  ∃ (inner : List U8) (version : U8) (modulus publicExponent privateExponent prime1 prime2 exponent1 exponent2 coefficient : List U8),
    Accepts data (.sequence [.integer [0#8], algorithm, .octetString inner]) ∧
    Accepts inner (.sequence [.integer [version], .integer modulus, .integer publicExponent, .integer privateExponent,
      .integer prime1, .integer prime2, .integer exponent1, .integer exponent2, .integer coefficient]) ∧
    beVal modulus = n ∧ beVal privateExponent = d

/-- `data` is a SubjectPublicKeyInfo structure that the program accepts, with the given modulus and exponent. -/
def IsPublic (data : List U8) (n e : Nat) : Prop :=
  ∃ inner modulus publicExponent : List U8,
    Accepts data (.sequence [algorithm, .bitString inner 0#8]) ∧
    Accepts inner (.sequence [.integer modulus, .integer publicExponent]) ∧ beVal modulus = n ∧ beVal publicExponent = e

end Verif.Spec.Keys
