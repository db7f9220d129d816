import Lean.Syntax

/-! # Text literals as lists of characters -/

namespace Verif

/-- `chars!"abc"` is `['a', 'b', 'c']`. -/
syntax:max "chars!" str : term

macro_rules
  | `(chars! $s:str) => do
    let cs := s.getString.toList.toArray.map Lean.Syntax.mkCharLit
    `([$cs,*])

example : chars!"abc" = ['a', 'b', 'c'] := rfl
example : chars!"-> \"1\"".length = 6 := rfl

end Verif
