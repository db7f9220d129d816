import Verif.Proof.Aes
import Mathlib.Tactic.FinCases

/-! # AES: agreement with FIPS 197 -/

namespace Verif.Model.Aes
open Verif Polynomial
open Verif.Spec.Aes (toPoly ofPoly gmul m)

/-! ## Round constants -/

theorem ofPoly_mod {b : U8} {p : (ZMod 2)[X]} (h : φ b = AdjoinRoot.mk m p) : ofPoly (p %ₘ m) = b := by
  unfold φ at h
  rw [AdjoinRoot.mk_eq_mk] at h
  have h2 : (toPoly b) %ₘ m = p %ₘ m := by
    rw [← sub_eq_zero, ← sub_modByMonic, (modByMonic_eq_zero_iff_dvd m_monic)]
    exact h
  rw [← h2, (modByMonic_eq_self_iff m_monic).mpr, ofPoly_toPoly]
  refine lt_of_lt_of_eq (toPoly_degree _) ?_
  rw [degree_eq_natDegree m_monic.ne_zero, m_natDegree]; rfl

/-- `mul2` iterated. -/
def pow2 : Nat → U8
  | 0 => 1#8
  | n + 1 => mul2 (pow2 n)

theorem φ_pow2 (n : Nat) : φ (pow2 n) = AdjoinRoot.mk m (X ^ n) := by
  induction n with
  | zero => simp [pow2, φ_one]
  | succ n ih => rw [pow2, φ_mul2, ih, pow_succ', map_mul, AdjoinRoot.mk_X]; rfl

/-- The round constants, written out. -/
def rcTable : Vector Word 11 := #v[#v[0, 0, 0, 0], #v[0x01, 0, 0, 0], #v[0x02, 0, 0, 0], #v[0x04, 0, 0, 0],
  #v[0x08, 0, 0, 0], #v[0x10, 0, 0, 0], #v[0x20, 0, 0, 0], #v[0x40, 0, 0, 0], #v[0x80, 0, 0, 0],
  #v[0x1b, 0, 0, 0], #v[0x36, 0, 0, 0]]

theorem rcon_eq : rcon = .ok rcTable := by decide +kernel

theorem rcTable_pow2 : ∀ j (h : j < 11), 1 ≤ j → rcTable[j] = #v[pow2 (j - 1), 0#8, 0#8, 0#8] := by
  decide +kernel

/-- A word of the model as a word of the specification. -/
def toW (w : Word) : Spec.Aes.Word := fun i => w[i]

theorem toW_rcon {j : Nat} (h : j < 11) (h1 : 1 ≤ j) : toW rcTable[j] = Spec.Aes.rcon j := by
  funext i
  rw [rcTable_pow2 j h h1]
  unfold Spec.Aes.rcon toW
  rw [ofPoly_mod (φ_pow2 (j - 1))]
  fin_cases i <;> rfl

theorem toW_wxor (a b : Word) : toW (wxor a b) = Spec.Aes.wxor (toW a) (toW b) := by
  funext i; fin_cases i <;> rfl
theorem toW_rot (a : Word) : toW (rotateWord a) = Spec.Aes.rotWord (toW a) := by
  funext i; fin_cases i <;> rfl
theorem toW_sub (a : Word) : toW (substituteWord a) = Spec.Aes.subWord sub (toW a) := by
  funext i
  fin_cases i <;> simp [toW, substituteWord, Spec.Aes.subWord]

/-! ## Key expansion -/

/-- The words of the schedule as a function. -/
def wFn (ws : List Word) (i : Nat) : Spec.Aes.Word := toW (ws.getD i (Vector.replicate 4 0#8))

theorem wFn_lt (ws : List Word) {i : Nat} (h : i < ws.length) : wFn ws i = toW ws[i] := by
  rw [wFn, List.getD_eq_getElem?_getD, List.getElem?_eq_getElem h]; rfl

theorem nextWord_spec {N : Nat} (hN : 0 < N) (key : Vector Word N) (ws : List Word) {i : Nat} (hi : i < ws.length)
    (hNi : N ≤ i) (h11 : i / N < 11) (h : nextWord rcTable key (ws.take i) i = .ok ws[i]) :
    wFn ws i = if i % N = 0 then
        Spec.Aes.wxor (wFn ws (i - N)) (Spec.Aes.wxor (Spec.Aes.subWord sub (Spec.Aes.rotWord (wFn ws (i - 1))))
          (Spec.Aes.rcon (i / N)))
      else if N > 6 ∧ i % N = 4 then Spec.Aes.wxor (wFn ws (i - N)) (Spec.Aes.subWord sub (wFn ws (i - 1)))
      else Spec.Aes.wxor (wFn ws (i - N)) (wFn ws (i - 1)) := by
  have h1 : subU i N = .ok (i - N) := if_pos (by omega)
  have h2 : subU i 1 = .ok (i - 1) := if_pos (by omega)
  have h3 : idx (ws.take i) (i - N) = .ok (ws[i - N]'(by omega)) := by
    rw [idx_ok (by rw [List.length_take]; omega), List.getElem_take]
  have h4 : idx (ws.take i) (i - 1) = .ok (ws[i - 1]'(by omega)) := by
    rw [idx_ok (by rw [List.length_take]; omega), List.getElem_take]
  have h5 : vidx rcTable (i / N) = .ok rcTable[i / N] := dif_pos h11
  unfold nextWord at h
  rw [dif_neg (by omega), if_neg (by omega)] at h
  simp only [h1, h2, h3, h4, h5, bind, Except.bind] at h
  rw [wFn_lt ws hi, wFn_lt ws (i := i - N) (by omega), wFn_lt ws (i := i - 1) (by omega)]
  split at h
  · rename_i hc
    rw [if_pos hc]
    injection h with h
    rw [← h, toW_wxor, toW_wxor, toW_sub, toW_rot, toW_rcon h11 (Nat.div_pos hNi hN)]
    funext j; simp [Spec.Aes.wxor, BitVec.xor_assoc]
  · rename_i hc
    rw [if_neg hc]
    split at h
    · rename_i hc2
      rw [if_pos hc2]
      injection h with h
      rw [← h, toW_wxor, toW_sub]
    · rename_i hc2
      rw [if_neg hc2]
      injection h with h
      rw [← h, toW_wxor]

theorem expandKeyUsingWords_spec {N : Nat} (hN : 0 < N) (key : Vector Word N) (numKeys : Nat)
    (hk : ∀ i < 4 * numKeys, i / N < 11) :
    ∃ ws, expandKeyUsingWords rcTable key numKeys = .ok ws ∧ ws.length = 4 * numKeys ∧
      (∀ i (h : i < N) (h' : i < ws.length), ws[i] = key[i]) ∧
      ∀ i, N ≤ i → i < 4 * numKeys → wFn ws i = if i % N = 0 then
        Spec.Aes.wxor (wFn ws (i - N)) (Spec.Aes.wxor (Spec.Aes.subWord sub (Spec.Aes.rotWord (wFn ws (i - 1))))
          (Spec.Aes.rcon (i / N)))
      else if N > 6 ∧ i % N = 4 then Spec.Aes.wxor (wFn ws (i - N)) (Spec.Aes.subWord sub (wFn ws (i - 1)))
      else Spec.Aes.wxor (wFn ws (i - N)) (wFn ws (i - 1)) := by
  obtain ⟨ws, h1, h2, h3⟩ := foldlM_build (nextWord rcTable key) (4 * numKeys)
    (fun i hi w hw => nextWord_ok hN rcTable key w i hw (hk i hi))
  refine ⟨ws, h1, h2, ?_, ?_⟩
  · intro i h h'
    have := h3 i h'
    unfold nextWord at this
    rw [dif_pos h] at this
    injection this with this
    exact this.symm
  · intro i hi hi'
    exact nextWord_spec hN key ws (by omega) hi (hk i hi') (h3 i (by omega))

/-- The key of `4*N` bytes as `N` words. -/
theorem keyWords_length {N : Nat} (key : Vector U8 (4 * N)) : (chunksExact 4 key.toList).length = N := by
  unfold chunksExact
  rw [List.length_ofFn, Vector.length_toList]
  omega

theorem expandKey_spec {K N : Nat} (hK : K = 4 * N) (hN : 0 < N) (key : Vector U8 K) (Nr : Nat)
    (hNr : N ≤ 4 * (Nr + 1)) (hk : ∀ i < 4 * (Nr + 1), i / N < 11) :
    ∃ (keys : List (Vector U8 16)) (w : Nat → Spec.Aes.Word), expandKey N key (Nr + 1) = .ok keys ∧
      keys.length = Nr + 1 ∧ Spec.Aes.KeyExpansion sub N Nr key.toList w ∧
      ∀ k (h : k < keys.length), ∀ r c : Fin 4, (keys[k])[r.val + 4 * c.val] = w (4 * k + c.val) r := by
  subst hK
  have hl := keyWords_length key
  obtain ⟨ws, h1, h2, h3, h4⟩ := expandKeyUsingWords_spec hN
    (⟨(chunksExact 4 key.toList).toArray, by simpa using hl⟩ : Vector Word N) (Nr + 1) hk
  refine ⟨(chunksExact 4 ws).map joinWords, wFn ws, ?_, ?_, ⟨?_, ?_, ?_, ?_⟩, ?_⟩
  · unfold expandKey
    simp only [rcon_eq, bind, Except.bind]
    rw [dif_pos hl, h1]
  · rw [List.length_map, chunksExact, List.length_ofFn, h2]; omega
  · intro i hi j
    have hlt : i < ws.length := by omega
    rw [wFn_lt ws hlt, h3 i hi hlt]
    have hb : 4 * i + j.val < key.toList.length := by rw [Vector.length_toList]; omega
    rw [List.getElem?_eq_getElem hb]
    simp [toW, chunksExact, Nat.mul_comm]
  · intro i h5 h6 h7
    rw [h4 i h5 h6, if_pos h7]
  · intro i h5 h6 h7 h8 h9
    rw [h4 i h5 h6, if_neg h7, if_pos ⟨h8, h9⟩]
  · intro i h5 h6 h7 h8
    rw [h4 i h5 h6, if_neg h7, if_neg h8]
  · intro k hk' r c
    have hkl : 4 * k + c.val < ws.length := by
      rw [List.length_map, chunksExact, List.length_ofFn, h2] at hk'; omega
    rw [wFn_lt ws hkl]
    have e1 : (r.val + 4 * c.val) / 4 = c.val := by omega
    have e2 : (r.val + 4 * c.val) % 4 = r.val := by omega
    simp only [toW, chunksExact, joinWords, List.getElem_map, List.getElem_ofFn, Vector.getElem_ofFn, e1, e2, Nat.mul_comm k 4]
    rfl

/-! ## The cipher -/

open Verif.Spec.Aes (ofBlock)

theorem ofBlock_addKey (key : Vector U8 16) (w : Nat → Spec.Aes.Word) (k : Nat)
    (h : ∀ r c : Fin 4, key[r.val + 4 * c.val] = w (4 * k + c.val) r) (s : State) :
    ofBlock (addKey key s) = Spec.Aes.addRoundKey w k (ofBlock s) := by
  funext r c
  simp [ofBlock, addKey, Spec.Aes.addRoundKey, h]

theorem ofBlock_substitute (s : State) : ofBlock (substitute s) = Spec.Aes.subBytes sub (ofBlock s) := by
  funext r c
  simp [ofBlock, substitute, Spec.Aes.subBytes]

theorem ofBlock_shiftRows (s : State) : ofBlock (shiftRows s) = Spec.Aes.shiftRows (ofBlock s) := by
  rw [vec16 s, shiftRows_lit]
  funext r c
  fin_cases r <;> fin_cases c <;> rfl

theorem ofBlock_mixColumns (s : State) : ofBlock (mixColumns s) = Spec.Aes.mixColumns (ofBlock s) := by
  rw [vec16 s, mixColumns_lit]
  funext r c
  simp only [Spec.Aes.mixColumns, ← mul2_eq, ← mul3_eq]
  fin_cases r <;> fin_cases c <;> rfl

theorem ofBlock_encRounds (K : Nat → Vector U8 16) (w : Nat → Spec.Aes.Word) (n : Nat)
    (h : ∀ k ≤ n, ∀ r c : Fin 4, (K k)[r.val + 4 * c.val] = w (4 * k + c.val) r) (s : State) :
    ofBlock (encRounds K n s) = Spec.Aes.rounds sub w n (ofBlock s) := by
  induction n with
  | zero => rfl
  | succ n ih =>
    rw [encRounds, encStep, ofBlock_addKey _ w (n + 1) (h _ (by omega)), ofBlock_mixColumns, ofBlock_shiftRows,
      ofBlock_substitute, ih (fun k hk => h k (by omega)), Spec.Aes.rounds]

theorem ofBlock_encPure (K : Nat → Vector U8 16) (w : Nat → Spec.Aes.Word) (n : Nat)
    (h : ∀ k ≤ n, ∀ r c : Fin 4, (K k)[r.val + 4 * c.val] = w (4 * k + c.val) r) (s : State) :
    ofBlock (encPure K n s) = Spec.Aes.cipher sub w n (ofBlock s) := by
  rw [encPure, ofBlock_addKey _ w n (h _ (by omega)), ofBlock_shiftRows, ofBlock_substitute,
    ofBlock_encRounds K w _ (fun k hk => h k (by omega)), ofBlock_addKey _ w 0 (h _ (by omega)), Spec.Aes.cipher]

theorem ofBlock_injective : Function.Injective ofBlock := by
  intro a b h
  apply Vector.ext
  intro i hi
  have := congrFun (congrFun h ⟨i % 4, by omega⟩) ⟨i / 4, by omega⟩
  simp only [ofBlock] at this
  have e : i % 4 + 4 * (i / 4) = i := by omega
  simpa only [e] using this

/-- All the facts about one key size. -/
theorem built {K N : Nat} (hK : K = 4 * N) (hN : 0 < N) (key : Vector U8 K) (Nr : Nat)
    (hNr : N ≤ 4 * (Nr + 1)) (hk : ∀ i < 4 * (Nr + 1), i / N < 11) :
    ∃ (keys : List (Vector U8 16)) (w : Nat → Spec.Aes.Word), expandKey N key (Nr + 1) = .ok keys ∧
      keys.length = Nr + 1 ∧ Spec.Aes.KeyExpansion sub N Nr key.toList w ∧
      (∀ k (h : k < keys.length), ∀ r c : Fin 4, (keys[k])[r.val + 4 * c.val] = w (4 * k + c.val) r) ∧
      ∀ b, ∃ e, encrypt ⟨keys, Nr⟩ b = .ok e ∧ ofBlock e = Spec.Aes.cipher sub w Nr (ofBlock b) := by
  obtain ⟨keys, w, h1, h2, h3, h4⟩ := expandKey_spec hK hN key Nr hNr hk
  refine ⟨keys, w, h1, h2, h3, h4, fun b => ⟨_, encrypt_eq ⟨keys, Nr⟩ h2 b, ?_⟩⟩
  apply ofBlock_encPure
  intro k hk r c
  have hlt : k < keys.length := by rw [h2]; exact Nat.lt_succ_of_le hk
  have : keyFn ⟨keys, Nr⟩ k = keys[k] := by
    rw [keyFn, List.getD_eq_getElem?_getD, List.getElem?_eq_getElem hlt]; rfl
  rw [this]
  exact h4 k hlt r c

end Verif.Model.Aes
