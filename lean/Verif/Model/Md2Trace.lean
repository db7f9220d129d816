import Verif.Model.Md2

/-! # MD2 with a record of the table lookups

The table `S` is in memory and is read at places that depend on the message. The functions of `Model.Md2` are repeated here
with a list of these places. -/

namespace Verif.Model.Md2Trace
open Verif Verif.Model.Md2

/-- Loop body of the checksum, src/md/md2.rs:51-52, with the place read. -/
def checksumStepT (chunk : Vector U8 16) (j : Nat) (hj : j < 16) (s : (Vector U8 16 × U8) × List U8) :
    (Vector U8 16 × U8) × List U8 :=
  let p := chunk[j] ^^^ s.1.2
  let v := s.1.1[j] ^^^ S[p.toNat]
  ((s.1.1.set j v, v), s.2 ++ [p])

/-- The checksum loop, src/md/md2.rs:50-53, with the places read. -/
def checksumLoopT (chunk : Vector U8 16) (s : (Vector U8 16 × U8) × List U8) : (Vector U8 16 × U8) × List U8 :=
  Nat.fold 16 (fun j hj s => checksumStepT chunk j hj s) s

/-- The inner loop, src/md/md2.rs:64-67, with the places read. -/
def mixLoopT (s : (Vector U8 48 × U8) × List U8) : (Vector U8 48 × U8) × List U8 :=
  Nat.fold 48 (fun k hk s =>
    let v := s.1.1[k] ^^^ S[s.1.2.toNat]
    ((s.1.1.set k v, v), s.2 ++ [s.1.2])) s

/-- The 18 rounds, src/md/md2.rs:60-70, with the places read. -/
def roundsT (x : Vector U8 48) (places : List U8) : Vector U8 48 × List U8 :=
  let s := Nat.fold 18 (fun j _ s =>
    let s := mixLoopT s
    ((s.1.1, s.1.2 + BitVec.ofNat 8 j), s.2)) ((x, 0#8), places)
  (s.1.1, s.2)

/-- `Hasher::process_chunk`, src/md/md2.rs:46-71, with the places read so far. -/
def processChunkT (s : Hasher × List U8) : R (Hasher × List U8) :=
  if hl : 16 ≤ s.1.chunk.length then
    let chunk : Vector U8 16 := ⟨(s.1.chunk.take 16).toArray, by simp [hl]⟩
    let c := checksumLoopT chunk ((s.1.checksum, s.1.l), s.2)
    let x := roundsT (fillLoop chunk s.1.x) c.2
    .ok (⟨[], c.1.1, c.1.2, x.1⟩, x.2)
  else .error .index

/-- `Hasher::consume`, src/md/md2.rs:26-31, with the places read so far. -/
def consumeT (s : Hasher × List U8) (byte : U8) : R (Hasher × List U8) :=
  let h := { s.1 with chunk := s.1.chunk ++ [byte] }
  if h.chunk.length = 16 then processChunkT (h, s.2) else .ok (h, s.2)

/-- `Hasher::finish`, src/md/md2.rs:33-44, with the places read. -/
def finishT (s : Hasher × List U8) : R (Vector U8 16 × List U8) := do
  let pad ← subU 16 (s.1.chunk.length % 256)
  let s ← processChunkT ({ s.1 with chunk := s.1.chunk ++ List.replicate pad (BitVec.ofNat 8 pad) }, s.2)
  let s ← processChunkT ({ s.1 with chunk := s.1.chunk ++ s.1.checksum.toList }, s.2)
  .ok (Vector.ofFn fun j : Fin 16 => s.1.x[j.val], s.2)

/-- `hash`, src/md/md2.rs:1-7, with the places read. -/
def hashT (data : List U8) : R (Vector U8 16 × List U8) := do finishT (← data.foldlM consumeT (Hasher.new, []))

end Verif.Model.Md2Trace
