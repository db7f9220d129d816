import Verif.Model.Rc4

/-! # RC4 with a record of the places of its table

The table of RC4 is in memory and is read and written at secret places. The functions of `Model.Rc4` are repeated here with
a list of these places. -/

namespace Verif.Model.Rc4Trace
open Verif Verif.Model.Rc4

/-- Loop body of the key schedule, src/rc/rc4.rs:18-23, for a non-empty key, with the second place of each `swap`. The first
is the loop variable and is left out. -/
def ksaStepT (key : List U8) (hk : 0 < key.length) (i : Nat) (hi : i < 256)
    (s : (Vector U8 256 × U8) × List U8) : (Vector U8 256 × U8) × List U8 :=
  let j := key[i % key.length]'(Nat.mod_lt _ hk) + s.1.1[i] + s.1.2
  ((s.1.1.swap i j.toNat hi j.isLt, j), s.2 ++ [j])

/-- `KeyStream::new`, src/rc/rc4.rs:10-26, with the places. -/
def newT (key : List U8) : R (KeyStream × List U8) :=
  if hk : 0 < key.length then
    let init : Vector U8 256 := Vector.ofFn fun i => BitVec.ofNat 8 i.val
    let s := Nat.fold 256 (fun i hi s => ksaStepT key hk i hi s) ((init, 0#8), [])
    .ok (⟨s.1.1, 0#8, 0#8⟩, s.2)
  else .error .divZero

/-- `KeyStream::next_key`, src/rc/rc4.rs:28-36, with the second place of the `swap` and the place of the byte that is
returned. The first place of the `swap` is the number of the byte modulo 256 and is left out. -/
def nextKeyT (k : KeyStream) : (U8 × KeyStream) × (U8 × U8) :=
  let x := k.x + 1#8
  let y := at8 k.state x + k.y
  let st := swap8 k.state x y
  let xorIndex := at8 st x + at8 st y
  ((at8 st xorIndex, ⟨st, x, y⟩), (y, xorIndex))

/-- `n` calls of `Iterator::next`, src/rc/rc4.rs:49-55: the bytes, the places and the object afterwards. -/
def takeT : Nat → KeyStream → List U8 × List (U8 × U8) × KeyStream
  | 0, k => ([], [], k)
  | n + 1, k =>
    let r := nextKeyT k
    let rest := takeT n r.1.2
    (r.1.1 :: rest.1, r.2 :: rest.2.1, rest.2.2)

end Verif.Model.Rc4Trace
