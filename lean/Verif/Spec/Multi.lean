import Verif.Basic

/-! # Many messages with one hash value (A. Joux, CRYPTO 2004)

Somebody can find, for every beginning of a message, two continuations that the hash function does not tell apart. Then
`k` searches are enough for `2 ^ k` messages: the second search is made behind the first pair, and so on. -/

namespace Verif.Spec.Multi
open Verif

/-- `find` finds, behind every `p` that is short enough, two continuations of the same length of at most `B` bytes that the
hash function `H` does not tell apart. -/
def Finds {δ : Type} (H : List U8 → R δ) (lim B : Nat) (find : List U8 → List U8 × List U8) : Prop :=
  ∀ p, p.length + B < lim → (find p).1 ≠ (find p).2 ∧ (find p).1.length = (find p).2.length ∧ (find p).1.length ≤ B ∧
    H (p ++ (find p).1) = H (p ++ (find p).2)

/-- The beginning that search number `k` is made behind: the first message of each earlier pair, with the padding `pad` of the
hash function. -/
def path (pad : List U8 → List U8) (find : List U8 → List U8 × List U8) : Nat → List U8
  | 0 => []
  | k + 1 => pad (path pad find k ++ (find (path pad find k)).1)

/-- The messages after `k` searches: each of the earlier messages is continued in two ways. -/
def messages (pad : List U8 → List U8) (find : List U8 → List U8 × List U8) : Nat → List (List U8)
  | 0 => [[]]
  | k + 1 => (messages pad find k).flatMap fun m =>
      [pad (m ++ (find (path pad find k)).1), pad (m ++ (find (path pad find k)).2)]

end Verif.Spec.Multi
