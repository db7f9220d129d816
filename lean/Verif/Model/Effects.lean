import Verif.Model.Lib

/-! # `src/lib.rs` with callbacks and iterators that are arbitrary code

`Verif.Model.Lib` records the bytes handed to `output`. Here `output`, the mode and the iterators are arbitrary code: they
read and write a common state `W` (everything the program can observe, including what closures have captured) and may
panic. A panic keeps the state it happened in. -/

namespace Verif.Model.Effects
open Verif

/-- Code with effects on `W` that may panic. Callbacks and iterators of the caller, src/lib.rs:41-45, 66, 94 and 126-138. -/
abbrev Eff (W α : Type) := ExceptT Panic (StateM W) α

/-- Run from a state: the result and the state afterwards. No counterpart in the code: it says what a caller of
src/lib.rs:62-123 observes. -/
def Eff.exec {W α : Type} (x : Eff W α) (w : W) : R α × W := StateT.run (ExceptT.run x) w

/-- Code without effects. Used for the calls without effects in src/lib.rs:62-123. -/
def Eff.ofR {W α : Type} : R α → Eff W α
  | .ok a => pure a
  | .error e => throw e

/-- `for b in output_block { output(b); }`, src/lib.rs:79-81, 85-87, 109-111, 120-122. -/
def outputAll {W : Type} (output : U8 → Eff W Unit) : List U8 → Eff W Unit
  | [] => pure ()
  | b :: bs => do output b; outputAll output bs

/-- The loop of `BlockEncryption::encrypt`, src/lib.rs:76-82; `enc` is `|block| mode.encrypt_block(&cipher, block)`. -/
def encLoop {W : Type} {N : Nat} (enc : Vector U8 N → Eff W (Vector U8 N)) (output : U8 → Eff W Unit) :
    List (Vector U8 N) → Eff W Unit
  | [] => pure ()
  | b :: bs => do
    let o ← enc b
    outputAll output o.toList
    encLoop enc output bs

/-- `BlockEncryption::encrypt`, src/lib.rs:62-88. -/
def encrypt {W : Type} {N : Nat} (enc : Vector U8 N → Eff W (Vector U8 N)) (output : U8 → Eff W Unit)
    (plaintext : List U8) : Eff W Unit := do
  if N = 0 then throw .explicit
  let lastBlock ← Eff.ofR (Pad.pkcsPad N (chunksRem N plaintext))
  encLoop enc output (chunksExact N plaintext)
  let o ← enc lastBlock
  outputAll output o.toList

/-- The loop of `BlockEncryption::decrypt`, src/lib.rs:105-115; `pending` is `next_output`. -/
def decLoop {W : Type} {N : Nat} (dec : Vector U8 N → Eff W (Vector U8 N)) (output : U8 → Eff W Unit) :
    Option (Vector U8 N) → List (Vector U8 N) → Eff W (Option (Vector U8 N))
  | pending, [] => pure pending
  | pending, b :: bs => do
    let o ← dec b
    match pending with
    | some p => outputAll output p.toList
    | none => pure ()
    decLoop dec output (some o) bs

/-- `BlockEncryption::decrypt`, src/lib.rs:90-123; `dec` is `|block| mode.decrypt_block(&cipher, block)`. -/
def decrypt {W : Type} {N : Nat} (dec : Vector U8 N → Eff W (Vector U8 N)) (output : U8 → Eff W Unit)
    (ciphertext : List U8) : Eff W Unit := do
  if N = 0 then throw .explicit
  if chunksRem N ciphertext ≠ [] then throw .explicit
  match ← decLoop dec output none (chunksExact N ciphertext) with
  | none => throw .unwrap
  | some last =>
    let len ← Eff.ofR (Pad.pkcsUnpad N last)
    outputAll output (last.toList.take len)

/-- `Iterator::next` of the iterator that `StreamCipher::encrypt` returns, src/lib.rs:137-139:
`data.into_iter().map(|d| self.keys.next().unwrap() ^ d)`. `Map::next` asks the data first and calls the closure only if
there is an item. -/
def streamNext {W : Type} (keys data : Eff W (Option U8)) : Eff W (Option U8) := do
  match ← data with
  | none => pure none
  | some d =>
    match ← keys with
    | none => throw .unwrap
    | some k => pure (some (k ^^^ d))

/-- Calling `next` up to `n` times and stopping at the first `None` (`take(n).collect()`, or a `for` loop left by `break`
after `n` items); the bytes obtained before a panic are kept. For iterators as in src/lib.rs:137-139. -/
def pull {W : Type} (next : Eff W (Option U8)) : Nat → W → List U8 × R Unit × W
  | 0, w => ([], .ok (), w)
  | n + 1, w =>
    match next.exec w with
    | (.error e, w) => ([], .error e, w)
    | (.ok none, w) => ([], .ok (), w)
    | (.ok (some b), w) =>
      let (out, r, w) := pull next n w
      (b :: out, r, w)

end Verif.Model.Effects
