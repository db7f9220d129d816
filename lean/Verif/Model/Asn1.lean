import Verif.Model.Oaep

/-! # Model of `src/pem/asn1.rs`

Strings are only error messages here; they are the constructors of `Error`, and their
texts are in `Verif.Model.Text`. Running out of stack on deeply nested
input is not modelled. -/

namespace Verif.Model.Asn1
open Verif Verif.Model.Oaep

/-- `enum Asn1`, src/pem/asn1.rs:1-9. -/
inductive Asn1
  | integer (bytes : List U8)
  | octetString (bytes : List U8)
  | bitString (bytes : List U8) (unused : U8)
  | null
  | objectIdentifier (bytes : List U8)
  | sequence (elements : List Asn1)
  deriving Repr, BEq, Inhabited

/-- The error messages of src/pem/asn1.rs:14, 31-33, 46, 52, 66. -/
inductive Error
  | tagHadNoLength
  | tooLittleData (tag : U8) (length actual : Nat)
  | inSequence (e : Error)
  | unknownTag (tag : U8)
  | extraBytes
  deriving DecidableEq, Repr

/-- The length field, src/pem/asn1.rs:17-27: the bytes behind it and the length. `!0x80` is `0x7f`. -/
def lengthField (bytes : List U8) : R (List U8 × Nat) := do
  let b ← idx bytes 1
  if b &&& 0x80#8 ≠ 0#8 then
    let lengthBytes := (b &&& 0x7f#8).toNat
    let off ← subU 16 lengthBytes
    let length ← copyInto (Vector.replicate 16 0#8) off (← slice bytes 2 (2 + lengthBytes))
    let rest ← slice bytes (2 + lengthBytes) bytes.length
    .ok (rest, beVal length.toList % 2 ^ 64)
  else .ok (← slice bytes 2 bytes.length, b.toNat)

/-- The loop of src/pem/asn1.rs:45-49; the second argument is fuel, `parse` the recursive call. -/
def sequenceLoop (parse : List U8 → R (Except Error (Asn1 × List U8))) :
    Nat → List U8 → List Asn1 → R (Except Error (List Asn1))
  | 0, _, _ => .error .diverged
  | fuel + 1, left, elements =>
    if left ≠ [] then do
      match ← parse left with
      | .error e => .ok (.error (.inSequence e))
      | .ok (asn1, rest) => sequenceLoop parse fuel rest (elements ++ [asn1])
    else .ok (.ok elements)

/-- `Asn1::parse_from_bytes`, src/pem/asn1.rs:12-56; the first argument is fuel. -/
def parseFromBytes : Nat → List U8 → R (Except Error (Asn1 × List U8))
  | 0, _ => .error .diverged
  | fuel + 1, bytes => do
    if bytes.length ≤ 1 then return .error .tagHadNoLength
    let tag ← idx bytes 0
    let (rest, length) ← lengthField bytes
    if length > rest.length then return .error (.tooLittleData tag length rest.length)
    if tag = 0x02#8 then return .ok (.integer (← slice rest 0 length), ← slice rest length rest.length)
    else if tag = 0x04#8 then return .ok (.octetString (← slice rest 0 length), ← slice rest length rest.length)
    else if tag = 0x03#8 then
      let data ← slice rest 1 length
      return .ok (.bitString data (← idx rest 0), ← slice rest length rest.length)
    else if tag = 0x05#8 then return .ok (.null, ← slice rest length rest.length)
    else if tag = 0x06#8 then return .ok (.objectIdentifier (← slice rest 0 length), ← slice rest length rest.length)
    else if tag = 0x30#8 then
      let left ← slice rest 0 length
      match ← sequenceLoop (parseFromBytes fuel) (left.length + 1) left [] with
      | .error e => return .error e
      | .ok elements => return .ok (.sequence elements, ← slice rest length rest.length)
    else return .error (.unknownTag tag)

/-- `TryFrom<&[u8]> for Asn1`, src/pem/asn1.rs:59-71. -/
def tryFrom (bytes : List U8) : R (Except Error Asn1) := do
  match ← parseFromBytes (bytes.length + 1) bytes with
  | .error e => return .error e
  | .ok (asn1, left) => if left ≠ [] then return .error .extraBytes else return .ok asn1

end Verif.Model.Asn1
