import Verif.Spec.Block

/-! # Vocabulary for decryptions of modified ciphertexts -/

namespace Verif.Spec
open Verif Verif.Model

/-- The bytes of a list of blocks. -/
def bytesOf {N : Nat} (bs : List (Vector U8 N)) : List U8 := bs.flatMap Vector.toList

/-- How two results of `decrypt` differ if the difference is confined to the two blocks after the first `n`: the same bytes
before and after and the same outcome; `first` and `second` say how the two blocks differ. -/
structure DifferIn {N : Nat} (n : Nat) (first second : Vector U8 N → Vector U8 N → Prop) (r r' : Run) : Prop where
  parts : ∃ (before after : List U8) (p p' q q' : Vector U8 N), before.length = N * n ∧
    r.emitted = before ++ p.toList ++ q.toList ++ after ∧ r'.emitted = before ++ p'.toList ++ q'.toList ++ after ∧
    first p p' ∧ second q q'
  result : r'.result = r.result

/-- The block is the same. -/
def Same {N : Nat} (p p' : Vector U8 N) : Prop := p' = p
/-- The block differs in exactly the bits in which `a` and `a'` differ. -/
def Flipped {N : Nat} (a a' p p' : Vector U8 N) : Prop := p' = xorBlock p (xorBlock a a')
/-- The block differs (somehow) if `a` and `a'` do. -/
def Changed {N : Nat} (a a' p p' : Vector U8 N) : Prop := p' = p ↔ a' = a

end Verif.Spec
