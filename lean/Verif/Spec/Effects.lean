import Verif.Model.Effects

/-! # Vocabulary for callbacks and lazy iterators -/

namespace Verif.Spec.Effects
open Verif Verif.Model Verif.Model.Effects

/-- Code that owns the first part of the state. -/
def onFst {σ τ α : Type} (f : σ → R α × σ) : Eff (σ × τ) α :=
  ExceptT.mk fun w => ((f w.1).1, ((f w.1).2, w.2))

/-- Code that owns the second part of the state. -/
def onSnd {σ τ α : Type} (f : τ → R α × τ) : Eff (σ × τ) α :=
  ExceptT.mk fun w => ((f w.2).1, (w.1, (f w.2).2))

/-- A mode's block function, as code that owns the state of the mode (a panic leaves it as it was). -/
def stepMode {N : Nat} {σ : Type} (step : σ → Vector U8 N → R (Vector U8 N × σ)) (b : Vector U8 N) (s : σ) :
    R (Vector U8 N) × σ :=
  match step s b with
  | .ok (o, s') => (.ok o, s')
  | .error e => (.error e, s)

/-- What a caller sees whose callback `out` is handed `bytes` one after the other by a computation that then ends with `r`:
the first panic of the callback, or else `r`; and the callback's state at that moment. -/
def deliver {τ : Type} (out : U8 → τ → R Unit × τ) : List U8 → R Unit → τ → R Unit × τ
  | [], r, t => (r, t)
  | b :: bs, r, t =>
    match out b t with
    | (.ok _, t') => deliver out bs r t'
    | (.error e, t') => (.error e, t')

/-- The callback `|b| v.push(b)`. -/
def push (b : U8) (v : List U8) : R Unit × List U8 := (.ok (), v ++ [b])

/-- A callback that writes into a buffer of `k` bytes and panics when it is full. -/
def pushUpTo (k : Nat) (b : U8) (v : List U8) : R Unit × List U8 :=
  if v.length < k then (.ok (), v ++ [b]) else (.error .index, v)

/-- What happened: a block went through the cipher, or a byte was handed to the callback. -/
inductive Event (N : Nat)
  | block (b : Vector U8 N)
  | byte (b : U8)
  deriving DecidableEq

/-- A cipher that computes `f` and reports each call in a common log. -/
def loggedBlock {N : Nat} (f : Vector U8 N → Vector U8 N) (b : Vector U8 N) : Eff (List (Event N)) (Vector U8 N) :=
  ExceptT.mk fun log => (.ok (f b), log ++ [.block b])

/-- A callback that reports each call in the same log. -/
def loggedByte {N : Nat} (b : U8) : Eff (List (Event N)) Unit := ExceptT.mk fun log => (.ok (), log ++ [.byte b])

/-- The bytes of a block, handed over one after the other. -/
def bytesOf {N : Nat} (l : List U8) : List (Event N) := l.map .byte

/-- A key iterator that never ends: key byte number `i` is `key i`; its state is the position. -/
def keysFrom (key : Nat → U8) (i : Nat) : R (Option U8) × Nat := (.ok (some (key i)), i + 1)

/-- The iterator of a slice. -/
def listIter : List U8 → R (Option U8) × List U8
  | [] => (.ok none, [])
  | d :: ds => (.ok (some d), ds)

/-- A `KeyIter` never panics. -/
def keyIter {σ : Type} (next : KeyIter σ) (s : σ) : R (Option U8) × σ := (.ok (next s).1, (next s).2)

/-- Calls of `StreamCipher::encrypt` on one cipher, one after the other; the iterator of each call is dropped after at most
the given number of bytes. A panic ends the history. -/
def sessions {σ : Type} (next : KeyIter σ) : List (List U8 × Nat) → σ → List U8 × R Unit × σ
  | [], s => ([], .ok (), s)
  | (data, n) :: rest, s =>
    match pull (streamNext (onFst (keyIter next)) (onSnd listIter)) n (s, data) with
    | (out, .error e, w) => (out, .error e, w.1)
    | (out, .ok _, w) =>
      let (out', r, s') := sessions next rest w.1
      (out ++ out', r, s')

end Verif.Spec.Effects
