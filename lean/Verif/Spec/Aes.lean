import Verif.Basic
import Mathlib.Algebra.Polynomial.Div
import Mathlib.Algebra.Polynomial.Basic
import Mathlib.Data.ZMod.Basic

/-! # AES as defined by FIPS 197

The field GF(2^8) is the textbook one: bytes are polynomials over `ZMod 2` of degree below 8, the product
is the polynomial product reduced modulo `x^8 + x^4 + x^3 + x + 1` with Mathlib's `%ₘ`. The state is a 4 by 4
array indexed by row and column, words are indexed by `Fin 4`. -/

namespace Verif.Spec.Aes
open Verif Polynomial

/-- FIPS 197 §3.2: the byte `b7 b6 ... b0` stands for `b7 x^7 + ... + b1 x + b0`. -/
noncomputable def toPoly (b : U8) : (ZMod 2)[X] :=
  ∑ i ∈ Finset.range 8, if b.getLsbD i then X ^ i else 0

/-- FIPS 197 §4.2: the modulus `m(x) = x^8 + x^4 + x^3 + x + 1`. -/
noncomputable def m : (ZMod 2)[X] := X ^ 8 + X ^ 4 + X ^ 3 + X + 1

/-- The byte that stands for a polynomial of degree below 8. -/
noncomputable def ofPoly : (ZMod 2)[X] → U8 := Function.invFun toPoly

/-- FIPS 197 §4.2: multiplication in GF(2^8). -/
noncomputable def gmul (a b : U8) : U8 := ofPoly ((toPoly a * toPoly b) %ₘ m)

/-- FIPS 197 §4.2: the multiplicative inverse; 0 is mapped to itself (§5.1.1). -/
noncomputable def ginv (a : U8) : U8 :=
  open Classical in if h : ∃ b, gmul a b = 1#8 then h.choose else 0#8

/-- FIPS 197 §5.1.1 (5.1): bit `i` of the affine image is
`b_i + b_{i+4} + b_{i+5} + b_{i+6} + b_{i+7} + c_i` (indices mod 8), `c = 0x63`. -/
def Affine (b s : U8) : Prop :=
  ∀ i, i < 8 → s.getLsbD i = (b.getLsbD i ^^ b.getLsbD ((i + 4) % 8) ^^ b.getLsbD ((i + 5) % 8) ^^
    b.getLsbD ((i + 6) % 8) ^^ b.getLsbD ((i + 7) % 8) ^^ (0x63#8).getLsbD i)

/-- FIPS 197 §5.1.1: `S` is the S-box. (There is exactly one such `S`: `Affine` fixes every bit.) -/
def IsSbox (S : U8 → U8) : Prop := ∀ b, Affine (ginv b) (S b)

/-- A word of four bytes. -/
abbrev Word := Fin 4 → U8

def wxor (a b : Word) : Word := fun i => a i ^^^ b i
/-- FIPS 197 §5.2: `RotWord([a0,a1,a2,a3]) = [a1,a2,a3,a0]`. -/
def rotWord (w : Word) : Word := fun i => w (i + 1)
/-- FIPS 197 §5.2: `SubWord`. -/
def subWord (S : U8 → U8) (w : Word) : Word := fun i => S (w i)
/-- FIPS 197 §5.2: `Rcon[j] = [x^(j-1), 0, 0, 0]`. -/
noncomputable def rcon (j : Nat) : Word := fun i => if i = 0 then ofPoly (X ^ (j - 1) %ₘ m) else 0#8

/-- FIPS 197 §5.2, Figure 11: `w` is the expanded key for a key of `Nk` words and `Nr` rounds. -/
structure KeyExpansion (S : U8 → U8) (Nk Nr : Nat) (key : List U8) (w : Nat → Word) : Prop where
  /-- the first `Nk` words are the key -/
  init : ∀ i < Nk, ∀ j : Fin 4, some (w i j) = key[4 * i + j.val]?
  /-- every `Nk`-th word -/
  first : ∀ i, Nk ≤ i → i < 4 * (Nr + 1) → i % Nk = 0 →
    w i = wxor (w (i - Nk)) (wxor (subWord S (rotWord (w (i - 1)))) (rcon (i / Nk)))
  /-- the extra `SubWord` of 256-bit keys -/
  mid : ∀ i, Nk ≤ i → i < 4 * (Nr + 1) → i % Nk ≠ 0 → Nk > 6 → i % Nk = 4 →
    w i = wxor (w (i - Nk)) (subWord S (w (i - 1)))
  /-- all other words -/
  rest : ∀ i, Nk ≤ i → i < 4 * (Nr + 1) → i % Nk ≠ 0 → ¬ (Nk > 6 ∧ i % Nk = 4) →
    w i = wxor (w (i - Nk)) (w (i - 1))

/-- The state: `s r c` is the byte in row `r`, column `c`. -/
abbrev State := Fin 4 → Fin 4 → U8

/-- FIPS 197 §3.4: `s[r,c] = in[r + 4c]`. -/
def ofBlock (b : Vector U8 16) : State := fun r c => b[r.val + 4 * c.val]

/-- FIPS 197 §5.1.4: `AddRoundKey` of round `k`. -/
def addRoundKey (w : Nat → Word) (k : Nat) (s : State) : State := fun r c => s r c ^^^ w (4 * k + c.val) r
/-- FIPS 197 §5.1.1: `SubBytes`. -/
def subBytes (S : U8 → U8) (s : State) : State := fun r c => S (s r c)
/-- FIPS 197 §5.1.2: `ShiftRows`: row `r` moves left by `r`. -/
def shiftRows (s : State) : State := fun r c => s r (c + r)
/-- FIPS 197 §5.1.3 (5.6): `MixColumns`. -/
noncomputable def mixColumns (s : State) : State := fun r c =>
  gmul 2#8 (s r c) ^^^ gmul 3#8 (s (r + 1) c) ^^^ s (r + 2) c ^^^ s (r + 3) c

/-- FIPS 197 §5.1, Figure 5, the rounds `1 .. n`. -/
noncomputable def rounds (S : U8 → U8) (w : Nat → Word) : Nat → State → State
  | 0, s => s
  | n + 1, s => addRoundKey w (n + 1) (mixColumns (shiftRows (subBytes S (rounds S w n s))))

/-- FIPS 197 §5.1, Figure 5: `Cipher`. -/
noncomputable def cipher (S : U8 → U8) (w : Nat → Word) (Nr : Nat) (s : State) : State :=
  addRoundKey w Nr (shiftRows (subBytes S (rounds S w (Nr - 1) (addRoundKey w 0 s))))

end Verif.Spec.Aes
