import Verif.Spec.Asn1

/-! # Rejected ASN.1 inputs, and the size of a tree -/

namespace Verif.Spec.Asn1
open Verif Verif.Model.Asn1

/-- The tags of the six kinds of values. -/
def knownTags : List U8 := [0x02#8, 0x03#8, 0x04#8, 0x05#8, 0x06#8, 0x30#8]

/-- `Fails bytes e`: no value can be read off the front of `bytes`, for the reason `e`. -/
inductive Fails : List U8 → Error → Prop
  | noLength (bytes : List U8) : bytes.length ≤ 1 → Fails bytes .tagHadNoLength
  | tooLittleData (tag : U8) (lf rest : List U8) (n : Nat) : LengthField lf n → rest.length < n →
      Fails (tag :: lf ++ rest) (.tooLittleData tag n rest.length)
  | unknownTag (tag : U8) (lf rest : List U8) (n : Nat) : LengthField lf n → n ≤ rest.length → tag ∉ knownTags →
      Fails (tag :: lf ++ rest) (.unknownTag tag)
  | inSequence (lf pre bad rest : List U8) (l : List Asn1) (e : Error) : LengthField lf (pre ++ bad).length →
      AcceptsAll pre l → bad ≠ [] → Fails bad e → Fails (0x30#8 :: lf ++ (pre ++ bad) ++ rest) (.inSequence e)

mutual
/-- The number of values in a tree: itself and everything inside. -/
def nodes : Asn1 → Nat
  | .sequence l => 1 + nodesAll l
  | _ => 1
/-- The number of values in several trees. -/
def nodesAll : List Asn1 → Nat
  | [] => 0
  | t :: l => nodes t + nodesAll l
end

mutual
/-- The number of bytes stored in the strings and numbers of a tree. -/
def stored : Asn1 → Nat
  | .integer b => b.length
  | .octetString b => b.length
  | .bitString b _ => b.length + 1
  | .null => 0
  | .objectIdentifier b => b.length
  | .sequence l => storedAll l
/-- The same for several trees. -/
def storedAll : List Asn1 → Nat
  | [] => 0
  | t :: l => stored t + storedAll l
end

mutual
/-- How deeply a tree is nested. -/
def depth : Asn1 → Nat
  | .sequence l => 1 + depthAll l
  | _ => 1
/-- The depth of the deepest of several trees. -/
def depthAll : List Asn1 → Nat
  | [] => 0
  | t :: l => max (depth t) (depthAll l)
end

mutual
/-- How many values there are in a tree, itself included. -/
def values : Asn1 → Nat
  | .sequence l => 1 + valuesAll l
  | _ => 1
/-- How many values there are in several trees. -/
def valuesAll : List Asn1 → Nat
  | [] => 0
  | t :: l => values t + valuesAll l
end

mutual
/-- The bytes of all strings and integers in a tree, and for each sequence those of the encodings of its elements. -/
def contents : Asn1 → Nat
  | .integer b => b.length
  | .octetString b => b.length
  | .bitString b _ => b.length
  | .null => 0
  | .objectIdentifier b => b.length
  | .sequence l => (derAll l).length + contentsAll l
/-- The same for several trees. -/
def contentsAll : List Asn1 → Nat
  | [] => 0
  | t :: l => contents t + contentsAll l
end

mutual
/-- The bytes of the encodings of the elements of sequences inside each other, on the path from the top for which they are the
most. -/
def nested : Asn1 → Nat
  | .sequence l => (derAll l).length + nestedAll l
  | _ => 0
/-- The most for several trees. -/
def nestedAll : List Asn1 → Nat
  | [] => 0
  | t :: l => max (nested t) (nestedAll l)
end

end Verif.Spec.Asn1
