import Verif.Spec.Rc5

/-! # Reading the expanded key of RC5 from the amounts of the rotations

Somebody has blocks of their choice decrypted and sees for each the plaintext and by how much words were rotated, in order.
RC5 makes from the two words of a plaintext block, `A` and `B`, the words `X 0 = A + S 0`, `X 1 = B + S 1` and
`X (j + 2) = rotate(X j xor X (j + 1), by X (j + 1)) + S (j + 2)`; the last two are the ciphertext. -/

namespace Verif.Spec.Rc5Leak
open Verif Spec.Rc5

/-- What somebody does who may choose blocks, sees an answer to each, and in the end says something. -/
inductive Plan (α : Type) where
  | say (a : α)
  | ask (block : Vector U8 8) (next : Vector U8 8 × List Nat → Plan α)

/-- What is said in the end, and the number of questions. -/
def Plan.run {α : Type} (oracle : Vector U8 8 → Vector U8 8 × List Nat) : Plan α → α × Nat
  | .say a => (a, 0)
  | .ask b next => (((next (oracle b)).run oracle).1, ((next (oracle b)).run oracle).2 + 1)

/-- Ask several questions and use the answers. -/
def askAll {α : Type} : List (Vector U8 8) → (List (Vector U8 8 × List Nat) → Plan α) → Plan α
  | [], use => use []
  | b :: bs, use => .ask b fun a => askAll bs fun as => use (a :: as)

/-- The block of two words. -/
def block (ab : U32 × U32) : Vector U8 8 := ⟨(bytes ab.1 ab.2).toArray, by simp [bytes, natToLE]⟩
/-- The first word of a block. -/
def first (p : Vector U8 8) : U32 := word p[0] p[1] p[2] p[3]
/-- The second word of a block. -/
def second (p : Vector U8 8) : U32 := word p[4] p[5] p[6] p[7]

/-- From `(X j, X (j + 1))` to `(X (j + 1), X (j + 2))`. -/
def up (S : Nat → U32) (j : Nat) (uv : U32 × U32) : U32 × U32 :=
  (uv.2, (uv.1 ^^^ uv.2).rotateLeft (uv.2.toNat % 32) + S (j + 2))
/-- From `(X n, X (n + 1))` to `(X (n + m), X (n + m + 1))`. -/
def ascend (S : Nat → U32) (n : Nat) : Nat → U32 × U32 → U32 × U32
  | 0, uv => uv
  | m + 1, uv => up S (n + m) (ascend S n m uv)

/-- The word with the given binary digits, the last one first. -/
def ofBits (bits : List Bool) : U32 := BitVec.ofNat 32 (bits.foldr (fun b n => b.toNat + 2 * n) 0)

/-- The ciphertexts for which `X k = 0` and `X (k - 1) = 0, 1, .., 31`; only the words of `S` above `k` are used. -/
def highQuestions (r k : Nat) (S : Nat → U32) : List (Vector U8 8) :=
  (List.range 32).map fun q => block (ascend S (k - 1) (2 * r + 1 - k) (BitVec.ofNat 32 q, 0))
/-- `S k` from the answers: `X (k - 2)` is `-S k` rotated by `q`, xor `q`. Its last bit is shown by the rotation number
`2 r + 2 - k`. -/
def highWord (r k : Nat) (answers : List (Vector U8 8 × List Nat)) : U32 :=
  -ofBits ((List.range 32).map fun q => ((answers.getD q default).2.getD (2 * r + 2 - k) 0 + q) % 2 == 1)

/-- The ciphertexts for which `X 2 = 0` and `X 1 = 0, 1, .., 31`, and then the same numbers with 32 added. -/
def lowQuestions (r : Nat) (S : Nat → U32) : List (Vector U8 8) :=
  ((List.range 32).map fun q => block (ascend S 1 (2 * r - 1) (BitVec.ofNat 32 q, 0))) ++
  (List.range 32).map fun q => block (ascend S 1 (2 * r - 1) (BitVec.ofNat 32 q ^^^ 32, 0))
/-- `S 2` from the answers: adding 32 to `X 1` adds 32 to `A` or takes 32 away, and a digit of `-S 2` decides which. -/
def word2 (answers : List (Vector U8 8 × List Nat)) : U32 :=
  -ofBits ((List.range 32).map fun q =>
    first (answers.getD (32 + (q + 27) % 32) default).1 == first (answers.getD ((q + 27) % 32) default).1 - 32)
/-- The table from the words found before and the answers to the low questions. -/
def finish (S : Nat → U32) (answers : List (Vector U8 8 × List Nat)) (i : Nat) : U32 :=
  if i = 0 then -word2 answers - first (answers.getD 0 default).1
  else if i = 1 then -second (answers.getD 0 default).1
  else if i = 2 then word2 answers
  else S i

/-- The attack on `r` rounds when the words of `S` above `n + 2` are known. -/
def attackFrom (r : Nat) : Nat → (Nat → U32) → Plan (List U32)
  | 0, S => askAll (lowQuestions r S) fun answers => .say ((List.range (2 * r + 2)).map (finish S answers))
  | n + 1, S => askAll (highQuestions r (n + 3) S) fun answers =>
      attackFrom r n (put S (n + 3) (highWord r (n + 3) answers))

/-- The attack on `r` rounds (at least one). It knows nothing of the key. -/
def attack (r : Nat) : Plan (List U32) := attackFrom r (2 * r - 1) fun _ => 0

end Verif.Spec.Rc5Leak
