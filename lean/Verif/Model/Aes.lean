import Verif.Basic
import Verif.Model.Lib

/-! # Model of `src/aes/` -/

namespace Verif.Model.Aes
open Verif

/-! ## `src/aes/field.rs` -/

/-- `AesField::mul2`, src/aes/field.rs:4-6. -/
def mul2 (n : U8) : U8 := (n <<< 1) ^^^ (if n &&& 0x80#8 ≠ 0#8 then 0x1b#8 else 0#8)

/-- `AesField::mul3`, src/aes/field.rs:8-10. -/
def mul3 (n : U8) : U8 := n ^^^ (n <<< 1) ^^^ (if n &&& 0x80#8 ≠ 0#8 then 0x1b#8 else 0#8)

/-- `AesField::div3`, src/aes/field.rs:12-18. -/
def div3 (n : U8) : U8 :=
  let n := n ^^^ (n <<< 1)
  let n := n ^^^ (n <<< 2)
  let n := n ^^^ (n <<< 4)
  n ^^^ (if n &&& 0x80#8 ≠ 0#8 then 0x09#8 else 0#8)

/-- The `while i < 8` loop of `AesField::mul`, src/aes/field.rs:24-37; the first argument counts the
remaining iterations. -/
def mulLoop : Nat → U8 → U8 → U8 → U8
  | 0, _, _, r => r
  | n + 1, a, b, r =>
    let r := if b &&& 1#8 ≠ 0#8 then r ^^^ a else r
    let hi := decide (a &&& 0x80#8 ≠ 0#8)
    let a := a <<< 1
    let a := if hi then a ^^^ 0x1b#8 else a
    let b := b >>> 1
    mulLoop n a b r

/-- `AesField::mul`, src/aes/field.rs:20-40. -/
def mul (a b : U8) : U8 := mulLoop 8 a b 0#8

/-- `AesFieldIterator`, src/aes/field.rs:53-56. -/
structure FieldIter where
  p : U8
  q : U8
  deriving DecidableEq

/-- `AesFieldIterator::start`, src/aes/field.rs:59-61. -/
def FieldIter.start : FieldIter := ⟨1#8, 1#8⟩

/-- `AesFieldIterator::step`, src/aes/field.rs:63-77. -/
def FieldIter.step (it : FieldIter) : Option ((U8 × U8) × (U8 × U8)) :=
  if it.p = 0#8 then none
  else
    let np := mul3 it.p
    let nq := div3 it.q
    let np := if np = 1#8 then 0#8 else np
    some ((it.p, it.q), (np, nq))

/-- `<AesFieldIterator as Iterator>::next`, src/aes/field.rs:83-91: the item and the new state. -/
def FieldIter.next (it : FieldIter) : Option (U8 × U8) × FieldIter :=
  match it.step with
  | some (item, (np, nq)) => (some item, ⟨np, nq⟩)
  | none => (none, it)

/-- `AesField.into_iter().collect()`: calls `next` until it answers `None`. `none` if that does not happen
within `fuel` calls. src/aes/field.rs:43-51, 80-92. -/
def FieldIter.collect : Nat → FieldIter → Option (List (U8 × U8))
  | 0, _ => none
  | fuel + 1, it =>
    match it.next with
    | (none, _) => some []
    | (some x, it') => (FieldIter.collect fuel it').map (x :: ·)

/-! ## `src/aes/sbox.rs` -/

/-- `struct Sbox`, src/aes/sbox.rs:5-8. -/
structure Sbox where
  forward : Vector U8 256
  backward : Vector U8 256
  deriving DecidableEq

/-- `transform_affine`, src/aes/sbox.rs:34-36. -/
def transformAffine (b : U8) : U8 :=
  b ^^^ b.rotateLeft 1 ^^^ b.rotateLeft 2 ^^^ b.rotateLeft 3 ^^^ b.rotateLeft 4 ^^^ 0x63#8

/-- The `while let` loop of `calculate_sbox`, src/aes/sbox.rs:20-26. -/
def sboxLoop : Nat → FieldIter → Vector U8 256 → Vector U8 256 → R Sbox
  | 0, _, _, _ => .error .diverged
  | fuel + 1, it, sbox, inverse =>
    match it.step with
    | none => .ok ⟨sbox, inverse⟩
    | some ((n, inv), (np, nq)) =>
      let s := transformAffine inv
      sboxLoop fuel ⟨np, nq⟩ (sbox.set n.toNat s n.isLt) (inverse.set s.toNat n s.isLt)

/-- `calculate_sbox`, src/aes/sbox.rs:10-32. The loop is given fuel for 300 iterations. -/
def calculateSbox : R Sbox :=
  sboxLoop 300 .start ((Vector.replicate 256 0#8).set 0 0x63#8) ((Vector.replicate 256 0#8).set 0x63 0#8)

/-- `SBOX`, src/aes/sbox.rs:3. A constant whose computation failed would not compile; the second
alternative is shown not to occur (`calculateSbox_ok`). -/
def SBOX : Sbox :=
  match calculateSbox with
  | .ok s => s
  | .error _ => ⟨Vector.replicate 256 0#8, Vector.replicate 256 0#8⟩

/-- `SBOX.forward[b as usize]`. Used at src/aes/cipher.rs:36 and src/aes/expander.rs:125-128. -/
def sub (b : U8) : U8 := SBOX.forward[b.toNat]'(b.isLt)
/-- `SBOX.backward[b as usize]`. Used at src/aes/cipher.rs:42. -/
def unsub (b : U8) : U8 := SBOX.backward[b.toNat]'(b.isLt)

/-! ## `src/aes/expander.rs` -/

/-- `struct Word`, src/aes/expander.rs:10-11. -/
abbrev Word := Vector U8 4

/-- `<Word as BitXor>::bitxor`, src/aes/expander.rs:30-34. -/
def wxor (a b : Word) : Word := #v[a[0] ^^^ b[0], a[1] ^^^ b[1], a[2] ^^^ b[2], a[3] ^^^ b[3]]

/-- The loop of `calculate_round_constants`, src/aes/expander.rs:110-114: `k` iterations left. -/
def rcLoop {L : Nat} : Nat → Nat → U8 → Vector U8 L → R (Vector U8 L)
  | 0, _, _, result => .ok result
  | k + 1, i, n, result => do rcLoop k (i + 1) (mul2 n) (← vset result i n)

/-- `calculate_round_constants::<L>`, src/aes/expander.rs:105-117. -/
def calculateRoundConstants (L : Nat) : R (Vector U8 L) := rcLoop (L - 1) 1 1#8 (Vector.replicate L 0#8)

/-- `AesKeyExpander::new().rcon`, src/aes/expander.rs:43-54. -/
def rcon : R (Vector Word 11) := do
  let rc ← calculateRoundConstants 11
  .ok (rc.map fun c => #v[c, 0#8, 0#8, 0#8])

/-- `rotate_word`, src/aes/expander.rs:119-121. -/
def rotateWord (w : Word) : Word := #v[w[1], w[2], w[3], w[0]]

/-- `substitute_word`, src/aes/expander.rs:123-130. -/
def substituteWord (w : Word) : Word := #v[sub w[0], sub w[1], sub w[2], sub w[3]]

/-- The body of the loop of `expand_key_using_words`, src/aes/expander.rs:90-100: the new word `v`. -/
def nextWord {N : Nat} (rcon : Vector Word 11) (key : Vector Word N) (w : List Word) (i : Nat) : R Word :=
  if h : i < N then .ok key[i]
  else if N = 0 then .error .divZero
  else if i % N = 0 then do
    let a ← idx w (← subU i N)
    let b ← idx w (← subU i 1)
    let c ← vidx rcon (i / N)
    .ok (wxor (wxor a (substituteWord (rotateWord b))) c)
  else if N > 6 ∧ i % N = 4 then do
    let a ← idx w (← subU i N)
    let b ← idx w (← subU i 1)
    .ok (wxor a (substituteWord b))
  else do
    let a ← idx w (← subU i N)
    let b ← idx w (← subU i 1)
    .ok (wxor a b)

/-- `expand_key_using_words::<N>`, src/aes/expander.rs:83-103. -/
def expandKeyUsingWords {N : Nat} (rcon : Vector Word 11) (key : Vector Word N) (numKeys : Nat) : R (List Word) :=
  (List.range (4 * numKeys)).foldlM (fun w i => do .ok (w ++ [← nextWord rcon key w i])) []

/-- The flattening of four words, src/aes/expander.rs:71-76. -/
def joinWords (words : Vector Word 4) : Vector U8 16 :=
  Vector.ofFn fun i => (words[i.val / 4]'(by omega))[i.val % 4]'(by omega)

/-- `expand_key::<K, W>`, src/aes/expander.rs:56-81. `try_into` to `[Word; W]` panics unless the key has `W`
words. Simplification: `result.chunks(4)` is modelled by `chunks_exact(4)`; the two agree because the
list has `4 * num_keys` words (`expandKeyUsingWords_length`). -/
def expandKey {K : Nat} (W : Nat) (key : Vector U8 K) (numKeys : Nat) : R (List (Vector U8 16)) := do
  let rc ← rcon
  let keyWords := chunksExact 4 key.toList
  if h : keyWords.length = W then
    let result ← expandKeyUsingWords rc (⟨keyWords.toArray, by simpa using h⟩ : Vector Word W) numKeys
    .ok ((chunksExact 4 result).map joinWords)
  else .error .unwrap

/-! ## `src/aes/cipher.rs` -/

/-- `struct State`, src/aes/cipher.rs:7. -/
abbrev State := Vector U8 16

/-- `AddKey::forward` and `AddKey::backward`, src/aes/cipher.rs:18-29. -/
def addKey (key : Vector U8 16) (s : State) : State := Vector.ofFn fun i => s[i] ^^^ key[i]

/-- `Substitute::forward`, src/aes/cipher.rs:34-38. -/
def substitute (s : State) : State := s.map sub

/-- `Substitute::backward`, src/aes/cipher.rs:40-44. -/
def unsubstitute (s : State) : State := s.map unsub

/-- `State::shift_row_one_step`, src/aes/cipher.rs:94-100 (called with rows 1, 2, 3). -/
def shiftRowOneStep (row : Nat) (h : row < 4) (s : State) : State :=
  let temp := s[row]
  let s := Nat.fold 3 (fun i hi s => s.set (row + i * 4) (s[row + (i + 1) * 4])) s
  s.set (row + 3 * 4) temp

/-- `ShiftRows::forward`, src/aes/cipher.rs:50-59. -/
def shiftRows (s : State) : State :=
  let s := shiftRowOneStep 1 (by decide) s
  let s := shiftRowOneStep 2 (by decide) s
  let s := shiftRowOneStep 2 (by decide) s
  let s := shiftRowOneStep 3 (by decide) s
  let s := shiftRowOneStep 3 (by decide) s
  shiftRowOneStep 3 (by decide) s

/-- `ShiftRows::backward`, src/aes/cipher.rs:61-70. -/
def unshiftRows (s : State) : State :=
  let s := shiftRowOneStep 1 (by decide) s
  let s := shiftRowOneStep 1 (by decide) s
  let s := shiftRowOneStep 1 (by decide) s
  let s := shiftRowOneStep 2 (by decide) s
  let s := shiftRowOneStep 2 (by decide) s
  shiftRowOneStep 3 (by decide) s

/-- `mix_column` applied to `state.0[4c..4c+4]`, src/aes/cipher.rs:77-81, 103-115. -/
def mixColumn (c : Nat) (hc : c < 4) (s : State) : State :=
  let c0 := s[c * 4]
  let c1 := s[c * 4 + 1]
  let c2 := s[c * 4 + 2]
  let c3 := s[c * 4 + 3]
  let d0 := mul2 c0 ^^^ mul3 c1 ^^^ c2 ^^^ c3
  let d1 := mul2 c1 ^^^ mul3 c2 ^^^ c3 ^^^ c0
  let d2 := mul2 c2 ^^^ mul3 c3 ^^^ c0 ^^^ c1
  let d3 := mul2 c3 ^^^ mul3 c0 ^^^ c1 ^^^ c2
  (((s.set (c * 4) d0).set (c * 4 + 1) d1).set (c * 4 + 2) d2).set (c * 4 + 3) d3

/-- `MixColumns::forward`, src/aes/cipher.rs:76-82. -/
def mixColumns (s : State) : State := Nat.fold 4 (fun c hc s => mixColumn c hc s) s

/-- `unmix_column` applied to `state.0[4c..4c+4]`, src/aes/cipher.rs:85-89, 117-129. -/
def unmixColumn (c : Nat) (hc : c < 4) (s : State) : State :=
  let c0 := s[c * 4]
  let c1 := s[c * 4 + 1]
  let c2 := s[c * 4 + 2]
  let c3 := s[c * 4 + 3]
  let d0 := mul c0 14#8 ^^^ mul c1 11#8 ^^^ mul c2 13#8 ^^^ mul c3 9#8
  let d1 := mul c1 14#8 ^^^ mul c2 11#8 ^^^ mul c3 13#8 ^^^ mul c0 9#8
  let d2 := mul c2 14#8 ^^^ mul c3 11#8 ^^^ mul c0 13#8 ^^^ mul c1 9#8
  let d3 := mul c3 14#8 ^^^ mul c0 11#8 ^^^ mul c1 13#8 ^^^ mul c2 9#8
  (((s.set (c * 4) d0).set (c * 4 + 1) d1).set (c * 4 + 2) d2).set (c * 4 + 3) d3

/-- `MixColumns::backward`, src/aes/cipher.rs:84-90. -/
def unmixColumns (s : State) : State := Nat.fold 4 (fun c hc s => unmixColumn c hc s) s

/-- `struct Aes`, src/aes/cipher.rs:131-134. -/
structure Aes where
  keys : List (Vector U8 16)
  rounds : Nat
  deriving DecidableEq

/-- `Aes::with_128_bit_key`, src/aes/cipher.rs:137-142. -/
def with128 (key : Vector U8 16) : R Aes := do .ok ⟨← expandKey 4 key 11, 10⟩

/-- `Aes::with_192_bit_key`, src/aes/cipher.rs:144-149. -/
def with192 (key : Vector U8 24) : R Aes := do .ok ⟨← expandKey 6 key 13, 12⟩

/-- `Aes::with_256_bit_key`, src/aes/cipher.rs:151-156. -/
def with256 (key : Vector U8 32) : R Aes := do .ok ⟨← expandKey 8 key 15, 14⟩

/-- One iteration of the round loop of `encrypt`, src/aes/cipher.rs:165-170. -/
def encRound (c : Aes) (s : State) (k : Nat) : R State := do
  .ok (addKey (← idx c.keys k) (mixColumns (shiftRows (substitute s))))

/-- `<Aes as BlockCipher<16>>::encrypt`, src/aes/cipher.rs:160-178. -/
def encrypt (c : Aes) (plaintext : Vector U8 16) : R (Vector U8 16) := do
  let s := addKey (← idx c.keys 0) plaintext
  let s ← (List.range' 1 (c.rounds - 1)).foldlM (encRound c) s
  .ok (addKey (← idx c.keys c.rounds) (shiftRows (substitute s)))

/-- One iteration of the round loop of `decrypt`, src/aes/cipher.rs:188-193. -/
def decRound (c : Aes) (s : State) (k : Nat) : R State := do
  .ok (unsubstitute (unshiftRows (unmixColumns (addKey (← idx c.keys k) s))))

/-- `<Aes as BlockCipher<16>>::decrypt`, src/aes/cipher.rs:180-198. -/
def decrypt (c : Aes) (ciphertext : Vector U8 16) : R (Vector U8 16) := do
  let s := unsubstitute (unshiftRows (addKey (← idx c.keys c.rounds) ciphertext))
  let s ← (List.range' 1 (c.rounds - 1)).reverse.foldlM (decRound c) s
  .ok (addKey (← idx c.keys 0) s)

/-- `Aes` as a `BlockCipher<16>`, src/aes/cipher.rs:159. -/
def cipher (c : Aes) : BlockCipher 16 := ⟨encrypt c, decrypt c⟩

/-! ## `src/aes/mod.rs` -/

/-- `key[(8 * i)..][..8].copy_from_slice(&v.to_be_bytes())`, src/aes/mod.rs:53. -/
def copyU64 {N : Nat} (key : Vector U8 N) (i : Nat) (v : U64) : R (Vector U8 N) :=
  if 8 * i + 8 ≤ N then
    .ok (Vector.ofFn fun j => if 8 * i ≤ j.val ∧ j.val < 8 * i + 8 then
      (natToBE 8 v.toNat).getD (j.val - 8 * i) 0#8 else key[j])
  else .error .index

/-- The loop of `copy_u64s`, src/aes/mod.rs:52-54. -/
def copyLoop {N : Nat} : Nat → List U64 → Vector U8 N → R (Vector U8 N)
  | _, [], key => .ok key
  | i, v :: vs, key => do copyLoop (i + 1) vs (← copyU64 key i v)

/-- `copy_u64s`, src/aes/mod.rs:50-56. -/
def copyU64s (N : Nat) (values : List U64) : R (Vector U8 N) := copyLoop 0 values (Vector.replicate N 0#8)

/-- `Aes::from(Key128::from([a, b]))`, src/aes/mod.rs:14-18, 32-36. -/
def fromU64x2 (v : Vector U64 2) : R Aes := do with128 (← copyU64s 16 v.toList)

/-- `Aes::from(Key192::from([a, b, c]))`, src/aes/mod.rs:20-24, 38-42. -/
def fromU64x3 (v : Vector U64 3) : R Aes := do with192 (← copyU64s 24 v.toList)

/-- `Aes::from(Key256::from([a, b, c, d]))`, src/aes/mod.rs:26-30, 44-48. -/
def fromU64x4 (v : Vector U64 4) : R Aes := do with256 (← copyU64s 32 v.toList)

end Verif.Model.Aes
