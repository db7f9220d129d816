import Verif.Model.RsaAsn1

/-! # Model of `src/pem/mod.rs`, of the conversions from PEM in `src/rsa/mod.rs`, and of the `base64` dependency

Text is `List Char` (Unicode scalar values). `writeln!` to a formatter is appending to the text so far; a formatter that
fails is in `Verif.Model.PemFmt`. Error messages are constructors of `Error`; their texts are in `Verif.Model.Text`. -/

namespace Verif.Model.Base64
open Verif

/-- The standard alphabet of the `base64` crate (`BASE64_STANDARD`, used in src/pem/mod.rs:24 and 90): 64 characters. -/
def alphabet : List Char :=
  ['A', 'B', 'C', 'D', 'E', 'F', 'G', 'H', 'I', 'J', 'K', 'L', 'M', 'N', 'O', 'P', 'Q', 'R', 'S', 'T', 'U', 'V', 'W', 'X',
   'Y', 'Z', 'a', 'b', 'c', 'd', 'e', 'f', 'g', 'h', 'i', 'j', 'k', 'l', 'm', 'n', 'o', 'p', 'q', 'r', 's', 't', 'u', 'v',
   'w', 'x', 'y', 'z', '0', '1', '2', '3', '4', '5', '6', '7', '8', '9', '+', '/']

/-- The character of a 6-bit value. Part of `BASE64_STANDARD` (dependency), used at src/pem/mod.rs:24. -/
def symbol (n : Nat) : Char := alphabet.getD n 'A'
/-- The 6-bit value of a character. Part of `BASE64_STANDARD` (dependency), used at src/pem/mod.rs:90-91. -/
def value (c : Char) : Option Nat := alphabet.idxOf? c

/-- `BASE64_STANDARD.encode` (dependency, used in src/pem/mod.rs:24). -/
def encode : List U8 → List Char
  | [] => []
  | [a] => [symbol (a.toNat / 4), symbol (a.toNat % 4 * 16), '=', '=']
  | [a, b] => [symbol (a.toNat / 4), symbol (a.toNat % 4 * 16 + b.toNat / 16), symbol (b.toNat % 16 * 4), '=']
  | a :: b :: c :: rest =>
    symbol (a.toNat / 4) :: symbol (a.toNat % 4 * 16 + b.toNat / 16) :: symbol (b.toNat % 16 * 4 + c.toNat / 64) ::
      symbol (c.toNat % 64) :: encode rest

/-- `BASE64_STANDARD.decode` (dependency, used in src/pem/mod.rs:90-92); `none` is any of its errors. Padding is required,
and the unused bits in front of the padding must be zero. -/
def decode : List Char → Option (List U8)
  | [] => some []
  | c0 :: c1 :: c2 :: c3 :: rest =>
    if rest = [] ∧ c3 = '=' then
      if c2 = '=' then do
        let w ← value c0
        let x ← value c1
        if x % 16 = 0 then some [BitVec.ofNat 8 (w * 4 + x / 16)] else none
      else do
        let w ← value c0
        let x ← value c1
        let y ← value c2
        if y % 4 = 0 then some [BitVec.ofNat 8 (w * 4 + x / 16), BitVec.ofNat 8 (x % 16 * 16 + y / 4)] else none
    else do
      let w ← value c0
      let x ← value c1
      let y ← value c2
      let z ← value c3
      let l ← decode rest
      some (BitVec.ofNat 8 (w * 4 + x / 16) :: BitVec.ofNat 8 (x % 16 * 16 + y / 4) :: BitVec.ofNat 8 (y % 4 * 64 + z) :: l)
  | _ => none

end Verif.Model.Base64

namespace Verif.Model.Pem
open Verif Verif.Model.Asn1

/-- The error messages of src/pem/mod.rs:50, 55, 59, 62, 67, 77, 80, 83 and 92. -/
inductive Error
  | multipleBegin
  | invalidBegin
  | endBeforeBegin
  | multipleEnd
  | invalidEnd
  | beginMissing
  | endMissing
  | labelMismatch
  | base64
  deriving DecidableEq, Repr

/-- `PEM`, src/pem/mod.rs:7-10. -/
structure PEM where
  label : List Char
  data : List U8
  deriving DecidableEq, Repr

/-- `"-----BEGIN "`, src/pem/mod.rs:22 and 48. -/
def beginMark : List Char := ['-', '-', '-', '-', '-', 'B', 'E', 'G', 'I', 'N', ' ']
/-- `"-----END "`, src/pem/mod.rs:35 and 57. -/
def endMark : List Char := ['-', '-', '-', '-', '-', 'E', 'N', 'D', ' ']
/-- `"-----"`, src/pem/mod.rs:22, 35, 52 and 64. -/
def dashes : List Char := ['-', '-', '-', '-', '-']

/-- The loop of src/pem/mod.rs:26-32; `i` counts the characters, `line` is the current line, `out` the text so far. -/
def wrapLoop : List Char → Nat → List Char → List Char → List Char × List Char
  | [], _, line, out => (line, out)
  | c :: cs, i, line, out =>
    if i % 64 = 0 ∧ i ≠ 0 then wrapLoop cs (i + 1) [c] (out ++ line ++ ['\n']) else wrapLoop cs (i + 1) (line ++ [c]) out

/-- `Display for PEM`, i.e. `to_string`, src/pem/mod.rs:21-38. -/
def display (pem : PEM) : List Char :=
  let out := beginMark ++ pem.label ++ dashes ++ ['\n']
  let (line, out) := wrapLoop (Base64.encode pem.data) 0 [] out
  let out := out ++ line ++ ['\n']
  out ++ (endMark ++ pem.label ++ dashes)

/-- `char::is_whitespace` (Unicode `White_Space`), which `str::trim` uses (src/pem/mod.rs:47). -/
def isWhitespace (c : Char) : Bool :=
  let n := c.toNat
  (9 ≤ n && n ≤ 13) || n = 0x20 || n = 0x85 || n = 0xA0 || n = 0x1680 || (0x2000 ≤ n && n ≤ 0x200A) || n = 0x2028 ||
    n = 0x2029 || n = 0x202F || n = 0x205F || n = 0x3000

/-- `str::trim` (used in src/pem/mod.rs:47). -/
def trim (l : List Char) : List Char := ((l.dropWhile isWhitespace).reverse.dropWhile isWhitespace).reverse

/-- `str::strip_prefix` (used in src/pem/mod.rs:48 and 57). -/
def stripPrefix (p l : List Char) : Option (List Char) := if p.isPrefixOf l then some (l.drop p.length) else none
/-- `str::strip_suffix` (used in src/pem/mod.rs:52 and 64). -/
def stripSuffix (p l : List Char) : Option (List Char) :=
  if p.isSuffixOf l then some (l.take (l.length - p.length)) else none

/-- The end of `str::lines`: a line without its line feed loses one carriage return. Used at src/pem/mod.rs:46. -/
def stripCr (l : List Char) : List Char := (stripSuffix ['\r'] l).getD l

/-- `str::lines` (used in src/pem/mod.rs:46); the second argument is the line so far. -/
def linesFrom : List Char → List Char → List (List Char)
  | [], line => if line = [] then [] else [line]
  | c :: cs, line => if c = '\n' then stripCr line :: linesFrom cs [] else linesFrom cs (line ++ [c])
/-- `str::lines`. Used at src/pem/mod.rs:46. -/
def lines (s : List Char) : List (List Char) := linesFrom s []

/-- The variables of the loop of src/pem/mod.rs:42-44. -/
structure State where
  beginLabel : Option (List Char)
  dataLines : List (List Char)
  endLabel : Option (List Char)
  deriving DecidableEq, Repr

/-- The body of the loop, src/pem/mod.rs:47-73. -/
def step (st : State) (l : List Char) : Except Error State :=
  let l := trim l
  match stripPrefix beginMark l with
  | some l =>
    if st.beginLabel.isSome then .error .multipleBegin
    else
      match stripSuffix dashes l with
      | some l => .ok { st with beginLabel := some l }
      | none => .error .invalidBegin
  | none =>
    match stripPrefix endMark l with
    | some l =>
      if st.beginLabel.isNone then .error .endBeforeBegin
      else if st.endLabel.isSome then .error .multipleEnd
      else
        match stripSuffix dashes l with
        | some l => .ok { st with endLabel := some l }
        | none => .error .invalidEnd
    | none =>
      if st.beginLabel.isSome ∧ st.endLabel.isNone then .ok { st with dataLines := st.dataLines ++ [l] } else .ok st

/-- `extract_pem_pieces`, src/pem/mod.rs:41-86. -/
def extractPemPieces (s : List Char) : Except Error (List Char × List (List Char)) := do
  let st ← (lines s).foldlM step ⟨none, [], none⟩
  match st.beginLabel with
  | none => .error .beginMissing
  | some b =>
    match st.endLabel with
    | none => .error .endMissing
    | some e => if e ≠ b then .error .labelMismatch else .ok (b, st.dataLines)

/-- `parse_pem_data`, src/pem/mod.rs:88-94. -/
def parsePemData (base64Lines : List (List Char)) : Except Error (List U8) :=
  match Base64.decode base64Lines.flatten with
  | none => .error .base64
  | some data => .ok data

/-- `decode_pem` and `FromStr for PEM`, src/pem/mod.rs:96-105 and 15-17. -/
def decodePem (s : List Char) : Except Error PEM := do
  let (label, lines) ← extractPemPieces s
  let data ← parsePemData lines
  .ok ⟨label, data⟩

/-- `"PRIVATE KEY"`, src/rsa/mod.rs:90. -/
def privateLabel : List Char := ['P', 'R', 'I', 'V', 'A', 'T', 'E', ' ', 'K', 'E', 'Y']
/-- `"PUBLIC KEY"`, src/rsa/mod.rs:107. -/
def publicLabel : List Char := ['P', 'U', 'B', 'L', 'I', 'C', ' ', 'K', 'E', 'Y']

/-- `TryFrom<PEM> for PrivateKey`, src/rsa/mod.rs:89-100. -/
def privateKeyTryFrom (pem : PEM) : R (Except RsaAsn1.Error Rsa.PrivateKey) := do
  if pem.label ≠ privateLabel then return .error .notAPrivateKey
  match ← tryFrom pem.data with
  | .error e => return .error (.asn1 e)
  | .ok asn =>
    match ← RsaAsn1.PrivateKeyInfo.fromAsn1 asn with
    | .error e => return .error e
    | .ok info => return .ok ⟨info.privateKey.modulus, info.privateKey.privateExponent⟩

/-- `TryFrom<PEM> for PublicKey`, src/rsa/mod.rs:106-117. -/
def publicKeyTryFrom (pem : PEM) : R (Except RsaAsn1.Error Rsa.PublicKey) := do
  if pem.label ≠ publicLabel then return .error .notAPublicKey
  match ← tryFrom pem.data with
  | .error e => return .error (.asn1 e)
  | .ok asn =>
    match ← RsaAsn1.SubjectPublicKeyInfo.fromAsn1 asn with
    | .error e => return .error e
    | .ok info => return .ok ⟨info.subjectPublicKey.modulus, info.subjectPublicKey.publicExponent⟩

end Verif.Model.Pem
