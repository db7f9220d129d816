import Verif.Basic
import Mathlib.Data.List.SplitOn
import Mathlib.Data.List.DropRight

/-! # Base64 (RFC 4648) and the textual layout of PEM (RFC 7468) -/

namespace Verif.Spec.Base64
open Verif

/-- The standard alphabet (RFC 4648, table 1). -/
def symbol (n : Nat) : Char :=
  if n < 26 then Char.ofNat ('A'.toNat + n)
  else if n < 52 then Char.ofNat ('a'.toNat + (n - 26))
  else if n < 62 then Char.ofNat ('0'.toNat + (n - 52))
  else if n = 62 then '+' else '/'

/-- The bits of a byte, the most significant first. -/
def bits (b : U8) : List Bool := (List.range 8).map fun i => b.getLsbD (7 - i)

/-- The number with the given bits, the most significant first. -/
def ofBits (l : List Bool) : Nat := l.foldl (fun n b => 2 * n + b.toNat) 0

/-- RFC 4648, section 4: the bits of the data, completed with zero bits, are read in groups of six; `=` fills up to a
multiple of four characters. -/
def encode (data : List U8) : List Char :=
  let bs := data.flatMap bits
  let n := (bs.length + 5) / 6
  (List.range n).map (fun i => symbol (ofBits ((List.range 6).map fun j => bs.getD (6 * i + j) false))) ++
    List.replicate ((4 - n % 4) % 4) '='

end Verif.Spec.Base64

namespace Verif.Spec.Pem
open Verif

/-- Unicode `White_Space`. -/
def whiteSpace : List Char :=
  [9, 10, 11, 12, 13, 0x20, 0x85, 0xA0, 0x1680, 0x2000, 0x2001, 0x2002, 0x2003, 0x2004, 0x2005, 0x2006, 0x2007, 0x2008,
   0x2009, 0x200A, 0x2028, 0x2029, 0x202F, 0x205F, 0x3000].map Char.ofNat

/-- A line without the white space at its ends. -/
def trim (l : List Char) : List Char := (l.dropWhile (· ∈ whiteSpace)).rdropWhile (· ∈ whiteSpace)

/-- The lines of a text (separated by line feeds), each without the white space at its ends. -/
def trimmedLines (s : List Char) : List (List Char) := (s.splitOn '\n').map trim

def beginMark : List Char := "-----BEGIN ".toList
def endMark : List Char := "-----END ".toList
def dashes : List Char := "-----".toList

/-- The line `-----BEGIN label-----`. -/
def beginLine (label : List Char) : List Char := beginMark ++ label ++ dashes
/-- The line `-----END label-----`. -/
def endLine (label : List Char) : List Char := endMark ++ label ++ dashes

/-- None of the lines starts like a BEGIN or END line. -/
def Plain (ls : List (List Char)) : Prop := ∀ l ∈ ls, ¬ beginMark <+: l ∧ ¬ endMark <+: l

end Verif.Spec.Pem
