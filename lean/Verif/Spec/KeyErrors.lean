import Verif.Spec.Asn1Errors
import Verif.Spec.Keys
import Verif.Model.RsaAsn1

/-! # Rejected key structures -/

namespace Verif.Spec.Keys
open Verif Verif.Spec.Asn1
open Verif.Model.Asn1 (Asn1)
open Verif.Model.RsaAsn1 (Error)

/-- `bytes` is not an ASN.1 value, for the reason `e`. -/
def Rejected (bytes : List U8) (e : Model.Asn1.Error) : Prop :=
  Fails bytes e ∨ e = .extraBytes ∧ ∃ a r t, bytes = a ++ r ∧ Accepts a t ∧ r ≠ []

/-- `t` is not an algorithm identifier for RSA; `other` is the error for another algorithm. -/
inductive BadAlgorithm (other : Error) : Asn1 → Error → Prop
  | notASequence (t : Asn1) : (∀ l, t ≠ .sequence l) → BadAlgorithm other t .expectedSequence
  | noIdentifier (l : List Asn1) : (∀ oid, l ≠ [.objectIdentifier oid, .null]) →
      BadAlgorithm other (.sequence l) .expectedObjectIdentifier
  | notRsa (oid : List U8) : oid ≠ rsaEncryption →
      BadAlgorithm other (.sequence [.objectIdentifier oid, .null]) other

/-- `t` is not a sequence of `count` integers; `wrong` is the error for another number of elements. -/
inductive NotIntegers (count : Nat) (wrong : Error) : Asn1 → Error → Prop
  | notASequence (t : Asn1) : (∀ l, t ≠ .sequence l) → NotIntegers count wrong t (.notASequence t)
  | wrongNumber (l : List Asn1) : l.length ≠ count → NotIntegers count wrong (.sequence l) wrong
  | notAllIntegers (l : List Asn1) : l.length = count → (∃ x ∈ l, ∀ b, x ≠ .integer b) →
      NotIntegers count wrong (.sequence l) .expectedIntegers

/-- `t` is not an `RSAPrivateKey`. -/
inductive BadRsaPrivateKey : Asn1 → Error → Prop
  | notIntegers (t : Asn1) (e : Error) : NotIntegers 9 .expected9Elements t e → BadRsaPrivateKey t e
  | version (v : List U8) (numbers : List (List U8)) : numbers.length = 8 → v.length ≠ 1 →
      BadRsaPrivateKey (.sequence ((v :: numbers).map .integer)) .versionNotOneByte

/-- `t` is not a PKCS#8 structure with an RSA key. -/
inductive BadPrivate : Asn1 → Error → Prop
  | notASequence (t : Asn1) : (∀ l, t ≠ .sequence l) → BadPrivate t (.notASequence t)
  | wrongNumber (l : List Asn1) : l.length ≠ 3 → BadPrivate (.sequence l) .expectedThreeElements
  | version (v a k : Asn1) : v ≠ .integer [0#8] → BadPrivate (.sequence [v, a, k]) .versionNotZero
  | algorithm (a k : Asn1) (e : Error) : BadAlgorithm .privateAlgorithmNotRsa a e → BadPrivate (.sequence [.integer [0#8], a, k]) e
  | notAnOctetString (k : Asn1) : (∀ b, k ≠ .octetString b) →
      BadPrivate (.sequence [.integer [0#8], Spec.Keys.algorithm, k]) .notAnOctetString
  | asn1 (inner : List U8) (e : Model.Asn1.Error) : Rejected inner e →
      BadPrivate (.sequence [.integer [0#8], Spec.Keys.algorithm, .octetString inner]) (.privateKeyBytes e)
  | key (inner : List U8) (t : Asn1) (e : Error) : Accepts inner t → BadRsaPrivateKey t e →
      BadPrivate (.sequence [.integer [0#8], Spec.Keys.algorithm, .octetString inner]) (.privateKey e)

/-- `t` is not a SubjectPublicKeyInfo with an RSA key. -/
inductive BadPublic : Asn1 → Error → Prop
  | notASequence (t : Asn1) : (∀ l, t ≠ .sequence l) → BadPublic t (.notASequence t)
  | wrongNumber (l : List Asn1) : l.length ≠ 2 → BadPublic (.sequence l) .expectedTwoElements
  | algorithm (a k : Asn1) (e : Error) : BadAlgorithm .algorithmNotRsa a e → BadPublic (.sequence [a, k]) e
  | notABitString (k : Asn1) : (∀ b u, k ≠ .bitString b u) →
      BadPublic (.sequence [Spec.Keys.algorithm, k]) .notABitString
  | unusedBits (inner : List U8) (u : U8) : u ≠ 0#8 →
      BadPublic (.sequence [Spec.Keys.algorithm, .bitString inner u]) .unusedBits
  | asn1 (inner : List U8) (e : Model.Asn1.Error) : Rejected inner e →
      BadPublic (.sequence [Spec.Keys.algorithm, .bitString inner 0#8]) (.publicKeyBytes e)
  | key (inner : List U8) (t : Asn1) (e : Error) : Accepts inner t → NotIntegers 2 .expected2Elements t e →
      BadPublic (.sequence [Spec.Keys.algorithm, .bitString inner 0#8]) (.publicKey e)

end Verif.Spec.Keys
