import Verif.Model.Asn1

/-! # Model of `src/pem/asn1.rs` on targets with another pointer width

The same functions as in `Verif.Model.Asn1`, with the number `w` of bits of `usize` as a parameter: `as usize` in
src/pem/asn1.rs:23 keeps the low `w` bits. Nothing else in that file depends on the width: all other numbers are at most the
length of the input, which fits into a `usize`. -/

namespace Verif.Model.Asn1
open Verif Verif.Model.Oaep

/-- The length field, src/pem/asn1.rs:17-27. -/
def lengthFieldW (w : Nat) (bytes : List U8) : R (List U8 × Nat) := do
  let b ← idx bytes 1
  if b &&& 0x80#8 ≠ 0#8 then
    let lengthBytes := (b &&& 0x7f#8).toNat
    let off ← subU 16 lengthBytes
    let length ← copyInto (Vector.replicate 16 0#8) off (← slice bytes 2 (2 + lengthBytes))
    let rest ← slice bytes (2 + lengthBytes) bytes.length
    .ok (rest, beVal length.toList % 2 ^ w)
  else .ok (← slice bytes 2 bytes.length, b.toNat)

/-- `Asn1::parse_from_bytes`, src/pem/asn1.rs:12-56. -/
def parseFromBytesW (w : Nat) : Nat → List U8 → R (Except Error (Asn1 × List U8))
  | 0, _ => .error .diverged
  | fuel + 1, bytes => do
    if bytes.length ≤ 1 then return .error .tagHadNoLength
    let tag ← idx bytes 0
    let (rest, length) ← lengthFieldW w bytes
    if length > rest.length then return .error (.tooLittleData tag length rest.length)
    if tag = 0x02#8 then return .ok (.integer (← slice rest 0 length), ← slice rest length rest.length)
    else if tag = 0x04#8 then return .ok (.octetString (← slice rest 0 length), ← slice rest length rest.length)
    else if tag = 0x03#8 then
      let data ← slice rest 1 length
      return .ok (.bitString data (← idx rest 0), ← slice rest length rest.length)
    else if tag = 0x05#8 then return .ok (.null, ← slice rest length rest.length)
    else if tag = 0x06#8 then return .ok (.objectIdentifier (← slice rest 0 length), ← slice rest length rest.length)
    else if tag = 0x30#8 then
      let left ← slice rest 0 length
      match ← sequenceLoop (parseFromBytesW w fuel) (left.length + 1) left [] with
      | .error e => return .error e
      | .ok elements => return .ok (.sequence elements, ← slice rest length rest.length)
    else return .error (.unknownTag tag)

/-- `TryFrom<&[u8]> for Asn1`, src/pem/asn1.rs:59-71. -/
def tryFromW (w : Nat) (bytes : List U8) : R (Except Error Asn1) := do
  match ← parseFromBytesW w (bytes.length + 1) bytes with
  | .error e => return .error e
  | .ok (asn1, left) => if left ≠ [] then return .error .extraBytes else return .ok asn1

end Verif.Model.Asn1
