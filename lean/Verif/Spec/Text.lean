import Verif.Chars
import Verif.Spec.KeyErrors

/-! # The texts of the errors: what is said about which input

`Fails`, `BadPrivate` and `BadPublic` again, with the sentence that is reported in each case. -/

namespace Verif.Spec.Text
open Verif Verif.Spec.Asn1
open Verif.Model.Asn1 (Asn1)

/-- A number in decimal. -/
def number (n : Nat) : List Char := (toString n).toList

/-- `[x, y, z]` -/
def listing (l : List (List Char)) : List Char := chars!"[" ++ List.intercalate chars!", " l ++ chars!"]"

/-- Bytes as a list of decimal numbers. -/
def bytesText (l : List U8) : List Char := listing (l.map fun b => number b.toNat)

mutual
/-- A tree in Rust notation. -/
def shown : Asn1 → List Char
  | .integer b => chars!"Integer(" ++ bytesText b ++ chars!")"
  | .octetString b => chars!"OctetString(" ++ bytesText b ++ chars!")"
  | .bitString b u => chars!"BitString(" ++ bytesText b ++ chars!", " ++ number u.toNat ++ chars!")"
  | .null => chars!"Null"
  | .objectIdentifier b => chars!"ObjectIdentifier(" ++ bytesText b ++ chars!")"
  | .sequence l => chars!"Sequence(" ++ listing (shownAll l) ++ chars!")"
/-- Several trees. -/
def shownAll : List Asn1 → List (List Char)
  | [] => []
  | t :: l => shown t :: shownAll l
end

/-- `Complaint bytes s`: no ASN.1 value can be read off the front of `bytes`, and `s` says why. -/
inductive Complaint : List U8 → List Char → Prop
  | noLength (bytes : List U8) : bytes.length ≤ 1 → Complaint bytes chars!"tag had no length"
  | tooLittleData (tag : U8) (lf rest : List U8) (n : Nat) : LengthField lf n → rest.length < n →
      Complaint (tag :: lf ++ rest) (chars!"tag (" ++ number tag.toNat ++ chars!") had too little data, expected " ++
        number n ++ chars!" bytes, got " ++ number rest.length)
  | unknownTag (tag : U8) (lf rest : List U8) (n : Nat) : LengthField lf n → n ≤ rest.length → tag ∉ knownTags →
      Complaint (tag :: lf ++ rest) (chars!"unknown tag: " ++ number tag.toNat)
  | inSequence (lf pre bad rest : List U8) (l : List Asn1) (s : List Char) : LengthField lf (pre ++ bad).length →
      AcceptsAll pre l → bad ≠ [] → Complaint bad s →
      Complaint (0x30#8 :: lf ++ (pre ++ bad) ++ rest) (chars!"failed to parse sequence: " ++ s)

/-- `bytes` is not exactly one ASN.1 value, and `s` says why. -/
def Unreadable (bytes : List U8) (s : List Char) : Prop :=
  Complaint bytes s ∨ s = chars!"extra bytes at the end" ∧ ∃ a r t, bytes = a ++ r ∧ Accepts a t ∧ r ≠ []

/-- What is said about a tree that should have been a sequence. -/
def noSequence (t : Asn1) : List Char :=
  chars!"expected content to be wrapped in a sequence tag, but found tag " ++ shown t

/-- What is said about a tree that is not an algorithm identifier; `other` is said about other algorithms than RSA. -/
inductive AlgorithmComplaint (other : List Char) : Asn1 → List Char → Prop
  | notASequence (t : Asn1) : (∀ l, t ≠ .sequence l) → AlgorithmComplaint other t chars!"expected sequence"
  | noIdentifier (l : List Asn1) : (∀ oid, l ≠ [.objectIdentifier oid, .null]) →
      AlgorithmComplaint other (.sequence l) chars!"expected object identifier"
  | notRsa (oid : List U8) : oid ≠ Keys.rsaEncryption →
      AlgorithmComplaint other (.sequence [.objectIdentifier oid, .null]) other

/-- What is said about a tree that is not a sequence of `count` integers; `wrong` is said about other numbers of elements. -/
inductive IntegersComplaint (count : Nat) (wrong : List Char) : Asn1 → List Char → Prop
  | notASequence (t : Asn1) : (∀ l, t ≠ .sequence l) → IntegersComplaint count wrong t (noSequence t)
  | wrongNumber (l : List Asn1) : l.length ≠ count → IntegersComplaint count wrong (.sequence l) wrong
  | notAllIntegers (l : List Asn1) : l.length = count → (∃ x ∈ l, ∀ b, x ≠ .integer b) →
      IntegersComplaint count wrong (.sequence l) chars!"expected integers"

/-- What is said about a tree that is not an `RSAPrivateKey`. -/
inductive RsaKeyComplaint : Asn1 → List Char → Prop
  | notIntegers (t : Asn1) (s : List Char) : IntegersComplaint 9 chars!"expected 9 elements" t s → RsaKeyComplaint t s
  | version (v : List U8) (numbers : List (List U8)) : numbers.length = 8 → v.length ≠ 1 →
      RsaKeyComplaint (.sequence ((v :: numbers).map .integer)) chars!"version field must be one byte"

/-- What is said about a tree that is not a PKCS#8 structure with an RSA key. -/
inductive PrivateComplaint : Asn1 → List Char → Prop
  | notASequence (t : Asn1) : (∀ l, t ≠ .sequence l) → PrivateComplaint t (noSequence t)
  | wrongNumber (l : List Asn1) : l.length ≠ 3 → PrivateComplaint (.sequence l) chars!"expected three elements"
  | version (v a k : Asn1) : v ≠ .integer [0#8] →
      PrivateComplaint (.sequence [v, a, k]) chars!"expected first element to be be zero"
  | algorithm (a k : Asn1) (s : List Char) : AlgorithmComplaint chars!"expected private key algorithm to be RSA" a s →
      PrivateComplaint (.sequence [.integer [0#8], a, k]) s
  | notAnOctetString (k : Asn1) : (∀ b, k ≠ .octetString b) →
      PrivateComplaint (.sequence [.integer [0#8], Keys.algorithm, k]) chars!"expected third element to be an octet string"
  | asn1 (inner : List U8) (s : List Char) : Unreadable inner s →
      PrivateComplaint (.sequence [.integer [0#8], Keys.algorithm, .octetString inner])
        (chars!"failed to parse ASN.1: " ++ s)
  | key (inner : List U8) (t : Asn1) (s : List Char) : Accepts inner t → RsaKeyComplaint t s →
      PrivateComplaint (.sequence [.integer [0#8], Keys.algorithm, .octetString inner])
        (chars!"failed to extract private key from ASN.1: " ++ s)

/-- What is said about a tree that is not a SubjectPublicKeyInfo with an RSA key. -/
inductive PublicComplaint : Asn1 → List Char → Prop
  | notASequence (t : Asn1) : (∀ l, t ≠ .sequence l) → PublicComplaint t (noSequence t)
  | wrongNumber (l : List Asn1) : l.length ≠ 2 → PublicComplaint (.sequence l) chars!"expected two elements"
  | algorithm (a k : Asn1) (s : List Char) : AlgorithmComplaint chars!"expected algorithm to be RSA" a s →
      PublicComplaint (.sequence [a, k]) s
  | notABitString (k : Asn1) : (∀ b u, k ≠ .bitString b u) →
      PublicComplaint (.sequence [Keys.algorithm, k]) chars!"expected second element to be a bit string"
  | unusedBits (inner : List U8) (u : U8) : u ≠ 0#8 →
      PublicComplaint (.sequence [Keys.algorithm, .bitString inner u])
        chars!"bit string had unused bits which is not supported yet"
  | asn1 (inner : List U8) (s : List Char) : Unreadable inner s →
      PublicComplaint (.sequence [Keys.algorithm, .bitString inner 0#8])
        (chars!"failed to parse subject public key: " ++ s)
  | key (inner : List U8) (t : Asn1) (s : List Char) : Accepts inner t →
      IntegersComplaint 2 chars!"expected 2 elements" t s →
      PublicComplaint (.sequence [Keys.algorithm, .bitString inner 0#8])
        (chars!"failed to convert ASN.1 into public key: " ++ s)

end Verif.Spec.Text
