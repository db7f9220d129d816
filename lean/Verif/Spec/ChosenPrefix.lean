import Verif.Basic

/-! # Somebody who can have texts encrypted in front of a secret

Nothing here refers to the crate: the encrypted texts are whatever an oracle answers. -/

namespace Verif.Spec.ChosenPrefix
open Verif

/-- What somebody does who may choose texts, sees the bytes that are returned for each, and in the end says something. The
next text may depend on all answers so far. -/
inductive Strategy (α : Type) where
  | say (a : α)
  | ask (text : List U8) (next : List U8 → Strategy α)

/-- What is said in the end, and the number of texts that were asked for, if the answers come from `oracle`. -/
def Strategy.run {α : Type} (oracle : List U8 → List U8) : Strategy α → α × Nat
  | .say a => (a, 0)
  | .ask text next => (((next (oracle text)).run oracle).1, ((next (oracle text)).run oracle).2 + 1)

/-- The `j`-th part of `N` bytes. -/
def part (N j : Nat) (bytes : List U8) : List U8 := (bytes.drop (N * j)).take N

/-- Try the bytes of a list one after the other behind `front`, until part `j` of the answer is `want`. -/
def tryBytes (N j : Nat) (front want : List U8) (found : U8 → Strategy (List U8)) : List U8 → Strategy (List U8)
  | [] => .say []
  | b :: bs => .ask (front ++ [b]) fun answer => if part N j answer = want then found b else tryBytes N j front want found bs

/-- The next bytes of the secret, if `known` are the first ones: shift the secret by a filler so that the first unknown byte
is the last one of a block, look at this block, and try all bytes in its place. -/
def readBytes (N : Nat) : Nat → List U8 → Strategy (List U8)
  | 0, known => .say known
  | n + 1, known =>
    let filler := List.replicate (N - 1 - known.length % N) 0#8
    let j := known.length / N
    .ask filler fun answer =>
      tryBytes N j (filler ++ known) (part N j answer) (fun b => readBytes N n (known ++ [b]))
        ((List.range 256).map (BitVec.ofNat 8))

/-- Ask for longer and longer fillers until the answer is longer than the first one (`first` bytes). The difference is the
block size, and the secret has `first` bytes less the filler. -/
def measure (first : Nat) : Nat → Nat → Strategy (List U8)
  | 0, _ => .say []
  | n + 1, t => .ask (List.replicate t 0#8) fun answer =>
      if first < answer.length then readBytes (answer.length - first) (first - t) [] else measure first n (t + 1)

/-- The whole attack. It knows neither the cipher, nor the key, nor the block size, nor the length of the secret. -/
def attack : Strategy (List U8) := .ask [] fun answer => measure answer.length 255 1

end Verif.Spec.ChosenPrefix
