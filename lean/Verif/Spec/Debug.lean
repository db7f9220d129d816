import Mathlib.Data.Nat.Digits.Defs

/-! # Reading numbers from a printed text

What somebody who finds a text in a log can do: take the decimal numbers between square brackets. -/

namespace Verif.Spec.Debug

/-- Reads a text from left to right. `number` is the decimal number that is being read, if any; `list` are the numbers since
the last opening bracket. -/
def scan (list : List Nat) (number : Option Nat) : List Char → List (List Nat)
  | [] => []
  | c :: text =>
    if c.isDigit then scan list (some (10 * number.getD 0 + (c.toNat - 48))) text
    else if c = '[' then scan [] none text
    else if c = ']' then (list ++ number.toList) :: scan [] none text
    else scan (list ++ number.toList) none text

/-- The lists of numbers in a text. -/
def listsIn (text : List Char) : List (List Nat) := scan [] none text

/-- The same, each list taken as a number in base 256, the least significant digit first. -/
def numbersIn (text : List Char) : List Nat := (listsIn text).map (Nat.ofDigits 256)

example : listsIn "x [1, 20] y [], [3]".toList = [[1, 20], [], [3]] := by decide +kernel
example : numbersIn "[1, 1] and [5]".toList = [257, 5] := by decide +kernel

end Verif.Spec.Debug
