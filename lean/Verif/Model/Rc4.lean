import Verif.Basic
import Verif.Model.Lib

/-! # Model of `src/rc/rc4.rs` -/

namespace Verif.Model.Rc4
open Verif

/-- `struct KeyStream`, src/rc/rc4.rs:3-7. -/
structure KeyStream where
  state : Vector U8 256
  x : U8
  y : U8
  deriving DecidableEq

/-- `table[b as usize]` for a 256-entry table and a byte index: always in range. Used at src/rc/rc4.rs:30, 33 and 35. -/
def at8 (t : Vector U8 256) (b : U8) : U8 := t[b.toNat]'(b.isLt)

/-- `table.swap(a as usize, b as usize)` for byte indices. Used at src/rc/rc4.rs:31. -/
def swap8 (t : Vector U8 256) (a b : U8) : Vector U8 256 := t.swap a.toNat b.toNat a.isLt b.isLt

/-- Loop body of the key schedule, src/rc/rc4.rs:18-23, for a non-empty key. -/
def ksaStep (key : List U8) (hk : 0 < key.length) (i : Nat) (hi : i < 256)
    (s : Vector U8 256 × U8) : Vector U8 256 × U8 :=
  let j := key[i % key.length]'(Nat.mod_lt _ hk) + s.1[i] + s.2
  (s.1.swap i j.toNat hi j.isLt, j)

/-- `KeyStream::new`, src/rc/rc4.rs:10-26. `i % key_data.len()` divides by zero on the empty key. -/
def new (key : List U8) : R KeyStream :=
  if hk : 0 < key.length then
    let init : Vector U8 256 := Vector.ofFn fun i => BitVec.ofNat 8 i.val
    let s := Nat.fold 256 (fun i hi s => ksaStep key hk i hi s) (init, 0#8)
    .ok ⟨s.1, 0#8, 0#8⟩
  else .error .divZero

/-- `KeyStream::next_key`, src/rc/rc4.rs:28-36. -/
def nextKey (k : KeyStream) : U8 × KeyStream :=
  let x := k.x + 1#8
  let y := at8 k.state x + k.y
  let st := swap8 k.state x y
  let xorIndex := at8 st x + at8 st y
  (at8 st xorIndex, ⟨st, x, y⟩)

/-- `Iterator::next` for `KeyStream`, src/rc/rc4.rs:49-55. -/
def next : KeyIter KeyStream := fun k =>
  let r := nextKey k
  (some r.1, r.2)

/-- `KeyStream::encrypt`, src/rc/rc4.rs:38-42: a `StreamCipher` over the key stream, collected. -/
def encrypt (k : KeyStream) (plaintext : List U8) : R (List U8) :=
  let r := streamEncrypt next k plaintext
  match r.result with
  | .ok _ => .ok r.yielded
  | .error e => .error e

/-- `KeyStream::decrypt`, src/rc/rc4.rs:44-46. -/
def decrypt (k : KeyStream) (ciphertext : List U8) : R (List U8) := encrypt k ciphertext

end Verif.Model.Rc4
