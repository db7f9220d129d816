import Verif.Model.Asn1

/-! # The parser of `src/pem/asn1.rs` with an account of what it uses

`parseC`, `sequenceLoopC` and `tryFromC` do what `parseFromBytes`, `sequenceLoop` and `tryFrom` of `Verif.Model.Asn1` do and
also count. What the code uses besides (frames on the stack, the vectors of elements and the strings of error messages) is
not counted. -/

namespace Verif.Model.Asn1
open Verif Verif.Model.Oaep

/-- What a call of `Asn1::parse_from_bytes` (src/pem/asn1.rs:12-56) has used when it returns or panics: the number of calls
of this function, how many of them were running at the same time, the bytes copied by `to_owned` (lines 37-39, 41 and 43),
and how many bytes in copies of sequence contents (line 43) there were at the same time. -/
structure Cost where
  calls : Nat
  depth : Nat
  copied : Nat
  held : Nat
  deriving DecidableEq, Repr

/-- A call that copies `n` bytes and calls nothing, src/pem/asn1.rs:13-41. -/
def Cost.leaf (n : Nat) : Cost := ⟨1, 1, n, 0⟩

/-- One call after the other, as in the loop of src/pem/asn1.rs:45-49. -/
def Cost.after (c d : Cost) : Cost := ⟨c.calls + d.calls, max c.depth d.depth, c.copied + d.copied, max c.held d.held⟩

/-- A call that copies the `n` bytes of the contents of a sequence and keeps them during its loop, src/pem/asn1.rs:43-49. -/
def Cost.around (n : Nat) (c : Cost) : Cost := ⟨c.calls + 1, c.depth + 1, c.copied + n, c.held + n⟩

/-- The bytes copied for a value that is not a sequence, src/pem/asn1.rs:37-41. -/
def leafCopy (tag : U8) (length : Nat) : Nat :=
  if tag = 0x02#8 then length else if tag = 0x04#8 then length else if tag = 0x03#8 then length - 1
  else if tag = 0x06#8 then length else 0

/-- The loop of src/pem/asn1.rs:45-49; the second argument is fuel, `parse` the recursive call. -/
def sequenceLoopC (parse : List U8 → R (Except Error (Asn1 × List U8)) × Cost) :
    Nat → List U8 → List Asn1 → Cost → R (Except Error (List Asn1)) × Cost
  | 0, _, _, c => (.error .diverged, c)
  | fuel + 1, left, elements, c =>
    if left ≠ [] then
      match parse left with
      | (.error p, d) => (.error p, c.after d)
      | (.ok (.error e), d) => (.ok (.error (.inSequence e)), c.after d)
      | (.ok (.ok (asn1, rest)), d) => sequenceLoopC parse fuel rest (elements ++ [asn1]) (c.after d)
    else (.ok (.ok elements), c)

/-- `Asn1::parse_from_bytes`, src/pem/asn1.rs:12-56; the first argument is fuel. Values that are not sequences are left to
`parseFromBytes`. -/
def parseC : Nat → List U8 → R (Except Error (Asn1 × List U8)) × Cost
  | 0, _ => (.error .diverged, .leaf 0)
  | fuel + 1, bytes =>
    match lengthField bytes with
    | .error _ => (parseFromBytes (fuel + 1) bytes, .leaf 0)
    | .ok (rest, length) =>
      if length > rest.length then (parseFromBytes (fuel + 1) bytes, .leaf 0)
      else if idx bytes 0 = .ok 0x30#8 then
        let r := sequenceLoopC (parseC fuel) (length + 1) (rest.take length) [] ⟨0, 0, 0, 0⟩
        (match r.1 with
          | .error p => .error p
          | .ok (.error e) => .ok (.error e)
          | .ok (.ok elements) => .ok (.ok (.sequence elements, rest.drop length)), .around length r.2)
      else (parseFromBytes (fuel + 1) bytes, .leaf (leafCopy (bytes.headD 0#8) length))

/-- `TryFrom<&[u8]> for Asn1`, src/pem/asn1.rs:59-71. -/
def tryFromC (bytes : List U8) : R (Except Error Asn1) × Cost :=
  let r := parseC (bytes.length + 1) bytes
  (match r.1 with
    | .error p => .error p
    | .ok (.error e) => .ok (.error e)
    | .ok (.ok (asn1, left)) => if left ≠ [] then .ok (.error .extraBytes) else .ok (.ok asn1), r.2)

end Verif.Model.Asn1
