import Verif.Model.Pem

/-! # `Display for PEM` with a formatter that may fail

`Verif.Model.Pem.display` is the text that a formatter receives which never fails. Here the formatter is arbitrary code
with a state of its own: `write s str` is `fmt::Write::write_str`, and returns the new state and whether it succeeded.
`?` leaves the function at the first failure; the state is kept. -/

namespace Verif.Model.Pem
open Verif

/-- A `fmt::Write`: the state after `write_str`, and whether it returned `Ok`. What is behind the `Formatter` of
src/pem/mod.rs:21. -/
abbrev Writer (σ : Type) := σ → List Char → σ × Bool

/-- `f.write_str(str)?`: the error is the state in which the function is left. Part of the `write!` and `writeln!` of
src/pem/mod.rs:21-38. -/
def writeStr {σ : Type} (write : Writer σ) (s : σ) (str : List Char) : Except σ σ :=
  let (s, ok) := write s str
  if ok then .ok s else .error s

/-- `write!(f, ...)?` (used in src/pem/mod.rs:22, 28, 33, 35): the literals and arguments are written in order. The compiler may
join adjacent pieces; the theorems hold for every way of cutting the text. -/
def writeFmt {σ : Type} (write : Writer σ) (s : σ) (pieces : List (List Char)) : Except σ σ :=
  pieces.foldlM (writeStr write) s

/-- The loop of src/pem/mod.rs:26-32; `i` counts the characters, `line` is the current line. -/
def fmtLoop {σ : Type} (write : Writer σ) : List Char → Nat → List Char → σ → Except σ (List Char × σ)
  | [], _, line, s => .ok (line, s)
  | c :: cs, i, line, s =>
    if i % 64 = 0 ∧ i ≠ 0 then do
      let s ← writeFmt write s [line, ['\n']]
      fmtLoop write cs (i + 1) [c] s
    else fmtLoop write cs (i + 1) (line ++ [c]) s

/-- `<PEM as Display>::fmt`, src/pem/mod.rs:21-38. -/
def fmt {σ : Type} (write : Writer σ) (s : σ) (pem : PEM) : Except σ σ := do
  let s ← writeFmt write s [beginMark, pem.label, dashes ++ ['\n']]
  let (line, s) ← fmtLoop write (Base64.encode pem.data) 0 [] s
  let s ← writeFmt write s [line, ['\n']]
  writeFmt write s [endMark, pem.label, dashes]

end Verif.Model.Pem
