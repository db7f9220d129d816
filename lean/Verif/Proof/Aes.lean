import Verif.Proof.AesSbox
import Verif.Proof.Words
import Verif.Proof.Chunks

/-! # AES: the round functions, the key schedule, the cipher -/

namespace Verif.Model.Aes
open Verif

/-! ## The steps are invertible -/

theorem addKey_addKey (k : Vector U8 16) (s : State) : addKey k (addKey k s) = s := by
  apply Vector.ext
  intro i hi
  simp [addKey, BitVec.xor_assoc]

theorem unsubstitute_substitute (s : State) : unsubstitute (substitute s) = s := by
  apply Vector.ext; intro i hi; simp [substitute, unsubstitute, unsub_sub]

theorem substitute_unsubstitute (s : State) : substitute (unsubstitute s) = s := by
  apply Vector.ext; intro i hi; simp [substitute, unsubstitute, sub_unsub]

theorem vec16 (s : State) : s = #v[s[0], s[1], s[2], s[3], s[4], s[5], s[6], s[7], s[8], s[9], s[10],
    s[11], s[12], s[13], s[14], s[15]] := by
  apply Vector.ext
  intro i hi
  match i, hi with
  | 0, _ | 1, _ | 2, _ | 3, _ | 4, _ | 5, _ | 6, _ | 7, _ | 8, _ | 9, _ | 10, _ | 11, _ | 12, _ | 13, _
  | 14, _ | 15, _ => rfl
  | n + 16, h => omega

theorem shiftRows_lit (a0 a1 a2 a3 a4 a5 a6 a7 a8 a9 a10 a11 a12 a13 a14 a15 : U8) :
    shiftRows #v[a0, a1, a2, a3, a4, a5, a6, a7, a8, a9, a10, a11, a12, a13, a14, a15] =
      #v[a0, a5, a10, a15, a4, a9, a14, a3, a8, a13, a2, a7, a12, a1, a6, a11] := by
  simp [shiftRows, shiftRowOneStep, Nat.fold_succ]
theorem unshiftRows_lit (a0 a1 a2 a3 a4 a5 a6 a7 a8 a9 a10 a11 a12 a13 a14 a15 : U8) :
    unshiftRows #v[a0, a1, a2, a3, a4, a5, a6, a7, a8, a9, a10, a11, a12, a13, a14, a15] =
      #v[a0, a13, a10, a7, a4, a1, a14, a11, a8, a5, a2, a15, a12, a9, a6, a3] := by
  simp [unshiftRows, shiftRowOneStep, Nat.fold_succ]
theorem vec16_congr {x0 x1 x2 x3 x4 x5 x6 x7 x8 x9 x10 x11 x12 x13 x14 x15 y0 y1 y2 y3 y4 y5 y6 y7 y8 y9 y10 y11 y12 y13 y14 y15 : U8}
    (h0 : x0 = y0) (h1 : x1 = y1) (h2 : x2 = y2) (h3 : x3 = y3) (h4 : x4 = y4) (h5 : x5 = y5) (h6 : x6 = y6) (h7 : x7 = y7) (h8 : x8 = y8) (h9 : x9 = y9) (h10 : x10 = y10) (h11 : x11 = y11) (h12 : x12 = y12) (h13 : x13 = y13) (h14 : x14 = y14) (h15 : x15 = y15) :
    #v[x0, x1, x2, x3, x4, x5, x6, x7, x8, x9, x10, x11, x12, x13, x14, x15] =
      #v[y0, y1, y2, y3, y4, y5, y6, y7, y8, y9, y10, y11, y12, y13, y14, y15] := by
  subst h0 h1 h2 h3 h4 h5 h6 h7 h8 h9 h10 h11 h12 h13 h14 h15
  rfl

/-- One output byte of `mix_column`. -/
def mixByte (a b c d : U8) : U8 := mul2 a ^^^ mul3 b ^^^ c ^^^ d
/-- One output byte of `unmix_column`. -/
def unmixByte (a b c d : U8) : U8 := mul a 14#8 ^^^ mul b 11#8 ^^^ mul c 13#8 ^^^ mul d 9#8
theorem mixColumns_lit (a0 a1 a2 a3 a4 a5 a6 a7 a8 a9 a10 a11 a12 a13 a14 a15 : U8) :
    mixColumns #v[a0, a1, a2, a3, a4, a5, a6, a7, a8, a9, a10, a11, a12, a13, a14, a15] =
      #v[mixByte a0 a1 a2 a3, mixByte a1 a2 a3 a0, mixByte a2 a3 a0 a1, mixByte a3 a0 a1 a2,
         mixByte a4 a5 a6 a7, mixByte a5 a6 a7 a4, mixByte a6 a7 a4 a5, mixByte a7 a4 a5 a6,
         mixByte a8 a9 a10 a11, mixByte a9 a10 a11 a8, mixByte a10 a11 a8 a9, mixByte a11 a8 a9 a10,
         mixByte a12 a13 a14 a15, mixByte a13 a14 a15 a12, mixByte a14 a15 a12 a13, mixByte a15 a12 a13 a14] := by
  simp [mixColumns, mixColumn, Nat.fold_succ, mixByte]

theorem unmixColumns_lit (a0 a1 a2 a3 a4 a5 a6 a7 a8 a9 a10 a11 a12 a13 a14 a15 : U8) :
    unmixColumns #v[a0, a1, a2, a3, a4, a5, a6, a7, a8, a9, a10, a11, a12, a13, a14, a15] =
      #v[unmixByte a0 a1 a2 a3, unmixByte a1 a2 a3 a0, unmixByte a2 a3 a0 a1, unmixByte a3 a0 a1 a2,
         unmixByte a4 a5 a6 a7, unmixByte a5 a6 a7 a4, unmixByte a6 a7 a4 a5, unmixByte a7 a4 a5 a6,
         unmixByte a8 a9 a10 a11, unmixByte a9 a10 a11 a8, unmixByte a10 a11 a8 a9, unmixByte a11 a8 a9 a10,
         unmixByte a12 a13 a14 a15, unmixByte a13 a14 a15 a12, unmixByte a14 a15 a12 a13,
         unmixByte a15 a12 a13 a14] := by
  simp [unmixColumns, unmixColumn, Nat.fold_succ, unmixByte]

theorem unshiftRows_shiftRows (s : State) : unshiftRows (shiftRows s) = s := by
  rw [vec16 s, shiftRows_lit, unshiftRows_lit]

theorem shiftRows_unshiftRows (s : State) : shiftRows (unshiftRows s) = s := by
  rw [vec16 s, unshiftRows_lit, shiftRows_lit]

theorem unmix_mix_ring {R : Type} [CommRing R] (h : (2 : R) = 0) (x a b c d : R) :
    ((x * a + (x + 1) * b + c + d) * (x ^ 3 + x ^ 2 + x) + (x * b + (x + 1) * c + d + a) * (x ^ 3 + x + 1) + (x * c + (x + 1) * d + a + b) * (x ^ 3 + x ^ 2 + 1) + (x * d + (x + 1) * a + b + c) * (x ^ 3 + 1)) = a := by
  linear_combination ((1 + x + x ^ 2 + 2 * x ^ 3 + x ^ 4) * a + (1 + x + 2 * x ^ 2 + 2 * x ^ 3 + x ^ 4) * b
    + (1 + 2 * x + x ^ 2 + 2 * x ^ 3 + x ^ 4) * c + (1 + 2 * x + x ^ 2 + 2 * x ^ 3 + x ^ 4) * d) * h

theorem mix_unmix_ring {R : Type} [CommRing R] (h : (2 : R) = 0) (x a b c d : R) :
    (x * (a * (x ^ 3 + x ^ 2 + x) + b * (x ^ 3 + x + 1) + c * (x ^ 3 + x ^ 2 + 1) + d * (x ^ 3 + 1)) + (x + 1) * (b * (x ^ 3 + x ^ 2 + x) + c * (x ^ 3 + x + 1) + d * (x ^ 3 + x ^ 2 + 1) + a * (x ^ 3 + 1)) + (c * (x ^ 3 + x ^ 2 + x) + d * (x ^ 3 + x + 1) + a * (x ^ 3 + x ^ 2 + 1) + b * (x ^ 3 + 1)) + (d * (x ^ 3 + x ^ 2 + x) + a * (x ^ 3 + x + 1) + b * (x ^ 3 + x ^ 2 + 1) + c * (x ^ 3 + 1))) = a := by
  linear_combination ((1 + x + x ^ 2 + 2 * x ^ 3 + x ^ 4) * a + (1 + x + 2 * x ^ 2 + 2 * x ^ 3 + x ^ 4) * b
    + (1 + 2 * x + x ^ 2 + 2 * x ^ 3 + x ^ 4) * c + (1 + 2 * x + x ^ 2 + 2 * x ^ 3 + x ^ 4) * d) * h

theorem unmix_mix (a b c d : U8) : unmixByte (mixByte a b c d) (mixByte b c d a) (mixByte c d a b) (mixByte d a b c) = a := by
  apply φ_injective
  simp only [unmixByte, mixByte, φ_xor, φ_mul, φ_mul2, φ_mul3, φ_9, φ_11, φ_13, φ_14]
  exact unmix_mix_ring Q_two _ _ _ _ _

theorem mix_unmix (a b c d : U8) :
    mixByte (unmixByte a b c d) (unmixByte b c d a) (unmixByte c d a b) (unmixByte d a b c) = a := by
  apply φ_injective
  simp only [unmixByte, mixByte, φ_xor, φ_mul, φ_mul2, φ_mul3, φ_9, φ_11, φ_13, φ_14]
  exact mix_unmix_ring Q_two _ _ _ _ _

theorem unmixColumns_mixColumns (s : State) : unmixColumns (mixColumns s) = s := by
  have h : ∀ a0 a1 a2 a3 a4 a5 a6 a7 a8 a9 a10 a11 a12 a13 a14 a15 : U8,
      unmixColumns (mixColumns #v[a0, a1, a2, a3, a4, a5, a6, a7, a8, a9, a10, a11, a12, a13, a14, a15]) =
      #v[a0, a1, a2, a3, a4, a5, a6, a7, a8, a9, a10, a11, a12, a13, a14, a15] := by
    intro a0 a1 a2 a3 a4 a5 a6 a7 a8 a9 a10 a11 a12 a13 a14 a15
    refine ((congrArg unmixColumns (mixColumns_lit _ _ _ _ _ _ _ _ _ _ _ _ _ _ _ _)).trans
      (unmixColumns_lit _ _ _ _ _ _ _ _ _ _ _ _ _ _ _ _)).trans ?_
    apply vec16_congr <;> exact unmix_mix _ _ _ _
  rw [vec16 s]
  exact h _ _ _ _ _ _ _ _ _ _ _ _ _ _ _ _

theorem mixColumns_unmixColumns (s : State) : mixColumns (unmixColumns s) = s := by
  have h : ∀ a0 a1 a2 a3 a4 a5 a6 a7 a8 a9 a10 a11 a12 a13 a14 a15 : U8,
      mixColumns (unmixColumns #v[a0, a1, a2, a3, a4, a5, a6, a7, a8, a9, a10, a11, a12, a13, a14, a15]) =
      #v[a0, a1, a2, a3, a4, a5, a6, a7, a8, a9, a10, a11, a12, a13, a14, a15] := by
    intro a0 a1 a2 a3 a4 a5 a6 a7 a8 a9 a10 a11 a12 a13 a14 a15
    refine ((congrArg mixColumns (unmixColumns_lit _ _ _ _ _ _ _ _ _ _ _ _ _ _ _ _)).trans
      (mixColumns_lit _ _ _ _ _ _ _ _ _ _ _ _ _ _ _ _)).trans ?_
    apply vec16_congr <;> exact mix_unmix _ _ _ _
  rw [vec16 s]
  exact h _ _ _ _ _ _ _ _ _ _ _ _ _ _ _ _


/-! ## The rounds -/

/-- Round `k` of encryption with the round keys given as a function. -/
def encStep (K : Nat → Vector U8 16) (k : Nat) (s : State) : State :=
  addKey (K k) (mixColumns (shiftRows (substitute s)))
def decStep (K : Nat → Vector U8 16) (k : Nat) (s : State) : State :=
  unsubstitute (unshiftRows (unmixColumns (addKey (K k) s)))

theorem decStep_encStep (K : Nat → Vector U8 16) (k : Nat) (s : State) : decStep K k (encStep K k s) = s := by
  simp [decStep, encStep, addKey_addKey, unmixColumns_mixColumns, unshiftRows_shiftRows, unsubstitute_substitute]
theorem encStep_decStep (K : Nat → Vector U8 16) (k : Nat) (s : State) : encStep K k (decStep K k s) = s := by
  simp [decStep, encStep, addKey_addKey, mixColumns_unmixColumns, shiftRows_unshiftRows, substitute_unsubstitute]

def encRounds (K : Nat → Vector U8 16) : Nat → State → State
  | 0, s => s
  | n + 1, s => encStep K (n + 1) (encRounds K n s)
def decRounds (K : Nat → Vector U8 16) : Nat → State → State
  | 0, s => s
  | n + 1, s => decRounds K n (decStep K (n + 1) s)

theorem decRounds_encRounds (K : Nat → Vector U8 16) (n : Nat) (s : State) : decRounds K n (encRounds K n s) = s := by
  induction n with
  | zero => rfl
  | succ n ih => simp [decRounds, encRounds, decStep_encStep, ih]
theorem encRounds_decRounds (K : Nat → Vector U8 16) (n : Nat) (s : State) : encRounds K n (decRounds K n s) = s := by
  induction n generalizing s with
  | zero => rfl
  | succ n ih => simp [decRounds, encRounds, ih, encStep_decStep]

def encPure (K : Nat → Vector U8 16) (r : Nat) (s : State) : State :=
  addKey (K r) (shiftRows (substitute (encRounds K (r - 1) (addKey (K 0) s))))
def decPure (K : Nat → Vector U8 16) (r : Nat) (s : State) : State :=
  addKey (K 0) (decRounds K (r - 1) (unsubstitute (unshiftRows (addKey (K r) s))))

theorem decPure_encPure (K : Nat → Vector U8 16) (r : Nat) (s : State) : decPure K r (encPure K r s) = s := by
  simp [decPure, encPure, addKey_addKey, unshiftRows_shiftRows, unsubstitute_substitute, decRounds_encRounds]
theorem encPure_decPure (K : Nat → Vector U8 16) (r : Nat) (s : State) : encPure K r (decPure K r s) = s := by
  simp [decPure, encPure, addKey_addKey, shiftRows_unshiftRows, substitute_unsubstitute, encRounds_decRounds]

/-- The round keys as a function. -/
def keyFn (c : Aes) (k : Nat) : Vector U8 16 := c.keys.getD k (Vector.replicate 16 0#8)

theorem idx_keyFn (c : Aes) {k : Nat} (h : k < c.keys.length) : idx c.keys k = .ok (keyFn c k) := by
  rw [idx_ok h, keyFn, List.getD_eq_getElem?_getD, List.getElem?_eq_getElem h]; rfl

theorem encFold (c : Aes) (n : Nat) (h : n < c.keys.length) (s : State) :
    (List.range' 1 n).foldlM (encRound c) s = .ok (encRounds (keyFn c) n s) := by
  induction n with
  | zero => rfl
  | succ n ih =>
    rw [List.range'_1_concat, List.foldlM_append, ih (by omega)]
    simp only [bind, Except.bind, List.foldlM_cons, List.foldlM_nil, encRound, Nat.add_comm 1 n,
      idx_keyFn c h, pure, Except.pure, encRounds, encStep]

theorem decFold (c : Aes) (n : Nat) (h : n < c.keys.length) (s : State) :
    (List.range' 1 n).reverse.foldlM (decRound c) s = .ok (decRounds (keyFn c) n s) := by
  induction n generalizing s with
  | zero => rfl
  | succ n ih =>
    rw [List.range'_1_concat, List.reverse_append, List.reverse_singleton, List.foldlM_append]
    simp only [bind, Except.bind, List.foldlM_cons, List.foldlM_nil, decRound, Nat.add_comm 1 n,
      idx_keyFn c h, pure, Except.pure, decRounds]
    exact ih (by omega) _

theorem encrypt_eq (c : Aes) (h : c.keys.length = c.rounds + 1) (s : State) :
    encrypt c s = .ok (encPure (keyFn c) c.rounds s) := by
  simp only [encrypt, idx_keyFn c (k := 0) (by omega), idx_keyFn c (k := c.rounds) (by omega), bind, Except.bind,
    encFold c (c.rounds - 1) (by omega), encPure]

theorem decrypt_eq (c : Aes) (h : c.keys.length = c.rounds + 1) (s : State) :
    decrypt c s = .ok (decPure (keyFn c) c.rounds s) := by
  simp only [decrypt, idx_keyFn c (k := 0) (by omega), idx_keyFn c (k := c.rounds) (by omega), bind, Except.bind,
    decFold c (c.rounds - 1) (by omega), decPure]

/-! ## The key schedule -/

/-- Appending in a loop over a range: if every step succeeds on a list of the right length, the loop
succeeds and every element is the step's result on the elements before it. -/
theorem foldlM_build {α : Type} (f : List α → Nat → R α) (n : Nat)
    (hf : ∀ i < n, ∀ w : List α, w.length = i → ∃ v, f w i = .ok v) :
    ∃ w, (List.range n).foldlM (fun w i => do .ok (w ++ [← f w i])) [] = .ok w ∧ w.length = n ∧
      ∀ i (h : i < w.length), f (w.take i) i = .ok w[i] := by
  induction n with
  | zero => exact ⟨[], rfl, rfl, fun i h => absurd h (by simp)⟩
  | succ n ih =>
    obtain ⟨w, h1, h2, h3⟩ := ih (fun i hi => hf i (by omega))
    obtain ⟨v, hv⟩ := hf n (by omega) w h2
    refine ⟨w ++ [v], ?_, by simp [h2], ?_⟩
    · rw [List.range_succ, List.foldlM_append, h1]
      simp only [bind, Except.bind, List.foldlM_cons, List.foldlM_nil, hv, pure, Except.pure]
    · intro i hi
      rw [List.length_append, List.length_singleton] at hi
      by_cases h : i < w.length
      · rw [List.take_append_of_le_length (by omega), List.getElem_append_left h]
        exact h3 i h
      · have : i = w.length := by omega
        subst this
        rw [List.take_append_of_le_length (by omega), List.take_length]
        simp [← h2] at hv ⊢
        exact hv

theorem nextWord_ok {N : Nat} (hN : 0 < N) (rc : Vector Word 11) (key : Vector Word N) (w : List Word) (i : Nat)
    (hw : w.length = i) (hi : i / N < 11) : ∃ v, nextWord rc key w i = .ok v := by
  unfold nextWord
  split
  · exact ⟨_, rfl⟩
  · rename_i h
    rw [if_neg (by omega)]
    have h1 : subU i N = .ok (i - N) := if_pos (by omega)
    have h2 : subU i 1 = .ok (i - 1) := if_pos (by omega)
    have h3 : idx w (i - N) = .ok (w[i - N]'(by omega)) := idx_ok _
    have h4 : idx w (i - 1) = .ok (w[i - 1]'(by omega)) := idx_ok _
    have h5 : vidx rc (i / N) = .ok rc[i / N] := dif_pos hi
    simp only [h1, h2, h3, h4, h5, bind, Except.bind]
    split
    · exact ⟨_, rfl⟩
    · split
      · exact ⟨_, rfl⟩
      · exact ⟨_, rfl⟩

end Verif.Model.Aes
