import Verif.Basic

/-! # Model of `src/md/md2.rs` -/

namespace Verif.Model.Md2
open Verif

set_option maxRecDepth 4000 in
/-- `const S`, src/md/md2.rs:74-88. -/
def S : Vector U8 256 := #v[
  41#8, 46#8, 67#8, 201#8, 162#8, 216#8, 124#8, 1#8, 61#8, 54#8, 84#8, 161#8, 236#8, 240#8, 6#8, 19#8,
  98#8, 167#8, 5#8, 243#8, 192#8, 199#8, 115#8, 140#8, 152#8, 147#8, 43#8, 217#8, 188#8, 76#8, 130#8, 202#8,
  30#8, 155#8, 87#8, 60#8, 253#8, 212#8, 224#8, 22#8, 103#8, 66#8, 111#8, 24#8, 138#8, 23#8, 229#8, 18#8,
  190#8, 78#8, 196#8, 214#8, 218#8, 158#8, 222#8, 73#8, 160#8, 251#8, 245#8, 142#8, 187#8, 47#8, 238#8, 122#8,
  169#8, 104#8, 121#8, 145#8, 21#8, 178#8, 7#8, 63#8, 148#8, 194#8, 16#8, 137#8, 11#8, 34#8, 95#8, 33#8,
  128#8, 127#8, 93#8, 154#8, 90#8, 144#8, 50#8, 39#8, 53#8, 62#8, 204#8, 231#8, 191#8, 247#8, 151#8, 3#8,
  255#8, 25#8, 48#8, 179#8, 72#8, 165#8, 181#8, 209#8, 215#8, 94#8, 146#8, 42#8, 172#8, 86#8, 170#8, 198#8,
  79#8, 184#8, 56#8, 210#8, 150#8, 164#8, 125#8, 182#8, 118#8, 252#8, 107#8, 226#8, 156#8, 116#8, 4#8, 241#8,
  69#8, 157#8, 112#8, 89#8, 100#8, 113#8, 135#8, 32#8, 134#8, 91#8, 207#8, 101#8, 230#8, 45#8, 168#8, 2#8,
  27#8, 96#8, 37#8, 173#8, 174#8, 176#8, 185#8, 246#8, 28#8, 70#8, 97#8, 105#8, 52#8, 64#8, 126#8, 15#8,
  85#8, 71#8, 163#8, 35#8, 221#8, 81#8, 175#8, 58#8, 195#8, 92#8, 249#8, 206#8, 186#8, 197#8, 234#8, 38#8,
  44#8, 83#8, 13#8, 110#8, 133#8, 40#8, 132#8, 9#8, 211#8, 223#8, 205#8, 244#8, 65#8, 129#8, 77#8, 82#8,
  106#8, 220#8, 55#8, 200#8, 108#8, 193#8, 171#8, 250#8, 36#8, 225#8, 123#8, 8#8, 12#8, 189#8, 177#8, 74#8,
  120#8, 136#8, 149#8, 139#8, 227#8, 99#8, 232#8, 109#8, 233#8, 203#8, 213#8, 254#8, 59#8, 0#8, 29#8, 57#8,
  242#8, 239#8, 183#8, 14#8, 102#8, 88#8, 208#8, 228#8, 166#8, 119#8, 114#8, 248#8, 235#8, 117#8, 75#8, 10#8,
  49#8, 68#8, 80#8, 180#8, 143#8, 237#8, 31#8, 26#8, 219#8, 153#8, 141#8, 51#8, 159#8, 17#8, 131#8, 20#8]

/-- `struct Hasher`, src/md/md2.rs:9-14. -/
structure Hasher where
  chunk : List U8
  checksum : Vector U8 16
  l : U8
  x : Vector U8 48
  deriving DecidableEq

/-- `Hasher::new`, src/md/md2.rs:17-24. -/
def Hasher.new : Hasher := ⟨[], Vector.replicate 16 0#8, 0#8, Vector.replicate 48 0#8⟩

/-- The checksum loop, src/md/md2.rs:50-53. -/
def checksumLoop (chunk : Vector U8 16) (s : Vector U8 16 × U8) : Vector U8 16 × U8 :=
  Nat.fold 16 (fun j hj s =>
    let v := s.1[j] ^^^ S[(chunk[j] ^^^ s.2).toNat]
    (s.1.set j v, v)) s

/-- The loop that fills `x`, src/md/md2.rs:55-58. -/
def fillLoop (chunk : Vector U8 16) (x : Vector U8 48) : Vector U8 48 :=
  Nat.fold 16 (fun j hj x =>
    let x := x.set (j + 16) chunk[j]
    x.set (j + 32) (x[j + 16] ^^^ x[j])) x

/-- The inner loop, src/md/md2.rs:64-67. -/
def mixLoop (s : Vector U8 48 × U8) : Vector U8 48 × U8 :=
  Nat.fold 48 (fun k hk s =>
    let v := s.1[k] ^^^ S[s.2.toNat]
    (s.1.set k v, v)) s

/-- The 18 rounds, src/md/md2.rs:60-70. -/
def rounds (x : Vector U8 48) : Vector U8 48 :=
  (Nat.fold 18 (fun j _ s =>
    let s := mixLoop s
    (s.1, s.2 + BitVec.ofNat 8 j)) (x, 0#8)).1

/-- `Hasher::process_chunk`, src/md/md2.rs:46-71. -/
def Hasher.processChunk (h : Hasher) : R Hasher :=
  if hl : 16 ≤ h.chunk.length then
    let chunk : Vector U8 16 := ⟨(h.chunk.take 16).toArray, by simp [hl]⟩
    let (checksum, l) := checksumLoop chunk (h.checksum, h.l)
    .ok ⟨[], checksum, l, rounds (fillLoop chunk h.x)⟩
  else .error .index

/-- `Hasher::consume`, src/md/md2.rs:26-31. -/
def Hasher.consume (h : Hasher) (byte : U8) : R Hasher :=
  let h := { h with chunk := h.chunk ++ [byte] }
  if h.chunk.length = 16 then h.processChunk else .ok h

/-- `Hasher::finish`, src/md/md2.rs:33-44. -/
def Hasher.finish (h : Hasher) : R (Vector U8 16) := do
  let pad ← subU 16 (h.chunk.length % 256)
  let h ← { h with chunk := h.chunk ++ List.replicate pad (BitVec.ofNat 8 pad) }.processChunk
  let h ← { h with chunk := h.chunk ++ h.checksum.toList }.processChunk
  .ok (Vector.ofFn fun j : Fin 16 => h.x[j.val])

/-- `hash`, src/md/md2.rs:1-7. -/
def hash (data : List U8) : R (Vector U8 16) := do (← data.foldlM Hasher.consume Hasher.new).finish

end Verif.Model.Md2
