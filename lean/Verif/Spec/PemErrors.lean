import Verif.Spec.Pem
import Verif.Model.Pem

/-! # Rejected PEM texts -/

namespace Verif.Spec.Pem
open Verif
open Verif.Model.Pem (Error)

/-- The lines that start like a BEGIN or END line. -/
def marks (ls : List (List Char)) : List (List Char) := ls.filter fun l => beginMark.isPrefixOf l || endMark.isPrefixOf l

/-- What is wrong with the BEGIN and END lines of a text: anything but one BEGIN line followed by one END line of the same
label. The first line that does not fit counts. -/
inductive BadMarks : List (List Char) → Error → Prop
  | beginMissing : BadMarks [] .beginMissing
  | endBeforeBegin (x : List Char) (r : List (List Char)) : BadMarks ((endMark ++ x) :: r) .endBeforeBegin
  | invalidBegin (x : List Char) (r : List (List Char)) : ¬ dashes <:+ x → BadMarks ((beginMark ++ x) :: r) .invalidBegin
  | endMissing (a : List Char) : BadMarks [beginLine a] .endMissing
  | multipleBegin (a x : List Char) (r : List (List Char)) :
      BadMarks (beginLine a :: (beginMark ++ x) :: r) .multipleBegin
  | invalidEnd (a x : List Char) (r : List (List Char)) : ¬ dashes <:+ x →
      BadMarks (beginLine a :: (endMark ++ x) :: r) .invalidEnd
  | multipleBeginBehind (a b x : List Char) (r : List (List Char)) :
      BadMarks (beginLine a :: endLine b :: (beginMark ++ x) :: r) .multipleBegin
  | multipleEnd (a b x : List Char) (r : List (List Char)) :
      BadMarks (beginLine a :: endLine b :: (endMark ++ x) :: r) .multipleEnd
  | labelMismatch (a b : List Char) : a ≠ b → BadMarks [beginLine a, endLine b] .labelMismatch

end Verif.Spec.Pem
