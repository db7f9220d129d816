import Verif.Model.Asn1
import Mathlib.Data.Nat.Digits.Defs

/-! # DER encoding and the accepted byte strings -/

namespace Verif.Spec.Asn1
open Verif Verif.Model.Asn1

/-- The big-endian base-256 digits of a number, without leading zeros. -/
def beDigits (n : Nat) : List U8 := ((Nat.digits 256 n).map (BitVec.ofNat 8)).reverse

/-- A DER length field (X.690, 8.1.3 and 10.1): one byte below 128, otherwise `0x80 + k` and the `k` digits of the length,
with the smallest possible `k`. -/
def derLength (n : Nat) : List U8 :=
  if n < 128 then [BitVec.ofNat 8 n] else BitVec.ofNat 8 (0x80 + (beDigits n).length) :: beDigits n

/-- Tag, length, contents. -/
def tlv (tag : U8) (content : List U8) : List U8 := tag :: derLength content.length ++ content

mutual
/-- The DER encoding of a value. -/
def der : Asn1 → List U8
  | .integer b => tlv 0x02#8 b
  | .octetString b => tlv 0x04#8 b
  | .bitString b unused => tlv 0x03#8 (unused :: b)
  | .null => tlv 0x05#8 []
  | .objectIdentifier b => tlv 0x06#8 b
  | .sequence l => tlv 0x30#8 (derAll l)
/-- The DER encodings of several values, one after the other. -/
def derAll : List Asn1 → List U8
  | [] => []
  | t :: l => der t ++ derAll l
end

/-- `lf` is a length field that declares the length `n`: the short form, or the long form with `k` digits (not necessarily
the fewest). -/
inductive Declares : List U8 → Nat → Prop
  | short (b : U8) : b.toNat < 128 → Declares [b] b.toNat
  | long (b : U8) (digits : List U8) : b.toNat = 128 + digits.length → Declares (b :: digits) (beVal digits)

/-- `lf` is a length field that the parser takes for the length `n`: at most 16 digits, and the number is read modulo
2^64. -/
def LengthField (lf : List U8) (n : Nat) : Prop := lf.length ≤ 17 ∧ ∃ m, Declares lf m ∧ n = m % 2 ^ 64

mutual
/-- `Accepts bytes t`: `bytes` is an encoding of `t` in the language that the parser accepts, which is BER with definite
lengths, primitive strings, and contents of a null value ignored. -/
inductive Accepts : List U8 → Asn1 → Prop
  | integer (lf content : List U8) : LengthField lf content.length → Accepts (0x02#8 :: lf ++ content) (.integer content)
  | octetString (lf content : List U8) : LengthField lf content.length →
      Accepts (0x04#8 :: lf ++ content) (.octetString content)
  | bitString (lf content : List U8) (unused : U8) : LengthField lf (content.length + 1) →
      Accepts (0x03#8 :: lf ++ unused :: content) (.bitString content unused)
  | null (lf content : List U8) : LengthField lf content.length → Accepts (0x05#8 :: lf ++ content) .null
  | objectIdentifier (lf content : List U8) : LengthField lf content.length →
      Accepts (0x06#8 :: lf ++ content) (.objectIdentifier content)
  | sequence (lf content : List U8) (l : List Asn1) : LengthField lf content.length → AcceptsAll content l →
      Accepts (0x30#8 :: lf ++ content) (.sequence l)
/-- Encodings of several values, one after the other. -/
inductive AcceptsAll : List U8 → List Asn1 → Prop
  | nil : AcceptsAll [] []
  | cons (a b : List U8) (t : Asn1) (l : List Asn1) : Accepts a t → AcceptsAll b l → AcceptsAll (a ++ b) (t :: l)
end

/-- The inputs on which the parser panics: at the front, or inside a sequence behind some accepted values, there is a
length field with more than 16 digits or with missing digits, or an empty bit string. -/
inductive Panics : List U8 → Prop
  | tooManyDigits (tag b : U8) (rest : List U8) : 128 + 16 < b.toNat → Panics (tag :: b :: rest)
  | missingDigits (tag b : U8) (rest : List U8) : 128 + rest.length < b.toNat → Panics (tag :: b :: rest)
  | emptyBitString (lf rest : List U8) : LengthField lf 0 → Panics (0x03#8 :: lf ++ rest)
  | inSequence (lf pre bad rest : List U8) (l : List Asn1) : LengthField lf (pre ++ bad).length → AcceptsAll pre l →
      Panics bad → Panics (0x30#8 :: lf ++ (pre ++ bad) ++ rest)

end Verif.Spec.Asn1
