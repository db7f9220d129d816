import Verif.Basic

/-! # Programs of someone who sees which places of the RC4 table are used

They know the algorithm and the places, but neither the key nor the table. -/

namespace Verif.Spec.Rc4Leak
open Verif

/-- Exchange two entries of a table. -/
def swap (S : U8 → U8) (a b : U8) : U8 → U8 := fun k => if k = a then S b else if k = b then S a else S k

/-- What is known during the key setup: the table, the last place, the number of the step, the key bytes found. -/
structure Setup where
  S : U8 → U8
  last : U8
  i : U8
  key : List U8

/-- A place is seen: the difference to the last one is the key byte plus the table entry, and the table is known. -/
def Setup.see (g : Setup) (j : U8) : Setup := ⟨swap g.S g.i j, j, g.i + 1#8, g.key ++ [j - g.last - g.S g.i]⟩

/-- The key bytes from the places of the key setup. -/
def keyBytes (places : List U8) : List U8 := (places.foldl Setup.see ⟨id, 0#8, 0#8, []⟩).key

/-- What is known while bytes are produced: some entries of the table, the number of the step, the last place. -/
structure Tap where
  known : U8 → Option U8
  x : U8
  y : U8

/-- Two places are seen, the second of the exchange and that of the byte which is returned: the difference to the last place
is the entry that has moved to `y`, and `q` is the sum of the exchanged entries. -/
def Tap.see (g : Tap) (p : U8 × U8) : Tap :=
  let v := p.1 - g.y
  ⟨fun k => if k = g.x + 1#8 then some (p.2 - v) else if k = p.1 then some v else g.known k, g.x + 1#8, p.1⟩

/-- What is known of a new object after the places of some bytes. -/
def tap (places : List (U8 × U8)) : Tap := places.foldl Tap.see ⟨fun _ => none, 0#8, 0#8⟩

end Verif.Spec.Rc4Leak
