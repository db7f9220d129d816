import Verif.Chars
import Verif.Model.Pem

/-! # Model of the error messages

The texts of the errors of `src/pem`, `src/rsa` and `src/big`, and of the derived `Debug` of `Asn1` that occurs in them. The
functions that return these errors are in the other modules; an error there is a constructor with the values that its text
contains. The text of a `base64` error is a parameter (any function of the text that was to be decoded). -/

namespace Verif.Model.Text
open Verif
open Verif.Model.Asn1 (Asn1)

/-- `{}` for an unsigned integer (used in src/pem/asn1.rs:32 and 52, src/big/uint.rs:52). -/
def decimal (n : Nat) : List Char := Nat.toDigits 10 n

/-- What `{:?}` prints between the brackets of a `Vec`: the entries, separated by a comma and a space. Used through the
derived `Debug` of src/pem/asn1.rs:1. -/
def entries : List (List Char) → List Char
  | [] => []
  | [x] => x
  | x :: y :: l => x ++ [',', ' '] ++ entries (y :: l)

/-- `{:?}` for a `Vec<u8>`. Used through the derived `Debug` of src/pem/asn1.rs:1. -/
def debugBytes (bytes : List U8) : List Char := ['['] ++ entries (bytes.map fun b => decimal b.toNat) ++ [']']

mutual
/-- `#[derive(Debug)]` for `Asn1`, src/pem/asn1.rs:1-9, as printed by `{:?}`. -/
def debug : Asn1 → List Char
  | .integer bytes => chars!"Integer(" ++ debugBytes bytes ++ [')']
  | .octetString bytes => chars!"OctetString(" ++ debugBytes bytes ++ [')']
  | .bitString bytes unused =>
    chars!"BitString(" ++ debugBytes bytes ++ [',', ' '] ++ decimal unused.toNat ++ [')']
  | .null => chars!"Null"
  | .objectIdentifier bytes => chars!"ObjectIdentifier(" ++ debugBytes bytes ++ [')']
  | .sequence elements => chars!"Sequence([" ++ entries (debugAll elements) ++ [']', ')']
/-- `{:?}` for the elements of a `Vec<Asn1>`. Used through the derived `Debug` of src/pem/asn1.rs:1. -/
def debugAll : List Asn1 → List (List Char)
  | [] => []
  | t :: l => debug t :: debugAll l
end

/-- The messages of src/pem/asn1.rs:14, 31-33, 46, 52 and 66. -/
def asn1Error : Asn1.Error → List Char
  | .tagHadNoLength => chars!"tag had no length"
  | .tooLittleData tag length actualLength =>
    chars!"tag (" ++ decimal tag.toNat ++ chars!") had too little data, expected " ++ decimal length ++
      chars!" bytes, got " ++ decimal actualLength
  | .inSequence e => chars!"failed to parse sequence: " ++ asn1Error e
  | .unknownTag tag => chars!"unknown tag: " ++ decimal tag.toNat
  | .extraBytes => chars!"extra bytes at the end"

/-- The messages of src/rsa/asn1.rs and src/rsa/mod.rs:91 and 108; the lines are at the constructors. -/
def keyError : RsaAsn1.Error → List Char
  | .notASequence found => chars!"expected content to be wrapped in a sequence tag, but found tag " ++ debug found
  | .expectedThreeElements => chars!"expected three elements"
  | .versionNotZero => chars!"expected first element to be be zero"
  | .privateAlgorithmNotRsa => chars!"expected private key algorithm to be RSA"
  | .notAnOctetString => chars!"expected third element to be an octet string"
  | .privateKeyBytes e => chars!"failed to parse ASN.1: " ++ asn1Error e
  | .privateKey e => chars!"failed to extract private key from ASN.1: " ++ keyError e
  | .expectedTwoElements => chars!"expected two elements"
  | .algorithmNotRsa => chars!"expected algorithm to be RSA"
  | .notABitString => chars!"expected second element to be a bit string"
  | .unusedBits => chars!"bit string had unused bits which is not supported yet"
  | .publicKeyBytes e => chars!"failed to parse subject public key: " ++ asn1Error e
  | .publicKey e => chars!"failed to convert ASN.1 into public key: " ++ keyError e
  | .expectedSequence => chars!"expected sequence"
  | .expectedObjectIdentifier => chars!"expected object identifier"
  | .expected9Elements => chars!"expected 9 elements"
  | .expectedIntegers => chars!"expected integers"
  | .versionNotOneByte => chars!"version field must be one byte"
  | .expected2Elements => chars!"expected 2 elements"
  | .notAPrivateKey => chars!"must be a private key"
  | .notAPublicKey => chars!"must be a public key"
  | .asn1 e => asn1Error e

/-- The messages of src/pem/mod.rs:50, 55, 59, 62, 67, 77, 80, 83 and 92 (the text of the `base64` error). -/
def pemError (base64 : List Char) : Pem.Error → List Char
  | .multipleBegin => chars!"multiple BEGIN lines"
  | .invalidBegin => chars!"invalid BEGIN line"
  | .endBeforeBegin => chars!"found END line before the BEGIN line"
  | .multipleEnd => chars!"multiple END lines"
  | .invalidEnd => chars!"invalid END line"
  | .beginMissing => chars!"BEGIN line is missing"
  | .endMissing => chars!"END line is missing"
  | .labelMismatch => chars!"label mismatch"
  | .base64 => base64

/-- The messages of src/rsa/oaep.rs:61, 75, 81 and 83. -/
def oaepError : Oaep.DecodeError → List Char
  | .firstByteNotZero => chars!"first byte is not 0"
  | .wrongLabel => chars!"wrong label"
  | .missingSeparator => chars!"missing 1-byte before message"
  | .separatorNotOne => chars!"separator is not a 1-byte"

/-- The message of src/big/uint.rs:51-54, for the number of bytes. -/
def asU128Error (length : Nat) : List Char := chars!"expected at most 16 bytes, but got " ++ decimal length

/-- The message of a returned error, if there is one. No counterpart in the code: it names the `Err` value of
src/pem/mod.rs:96-105, src/pem/asn1.rs and src/rsa/asn1.rs. -/
def message {ε α : Type} (text : ε → List Char) (r : R (Except ε α)) : Option (List Char) :=
  match r with
  | .ok (.error e) => some (text e)
  | _ => none

end Verif.Model.Text
