import Verif.Props.Birthday

/-! # C164: initial vectors of CBC that are known beforehand, or are the key -/

namespace Verif.Props
open Verif Verif.Model Verif.Spec

theorem xorBlock_swap {N : Nat} (g s t x : Vector U8 N) :
    xorBlock (xorBlock (xorBlock g s) t) t = xorBlock x s ↔ g = x := by
  have : xorBlock (xorBlock (xorBlock g s) t) t = xorBlock g s := by
    apply Vector.ext
    intro i hi
    simp only [xorBlock, Vector.getElem_ofFn, Fin.getElem_fin]
    rw [BitVec.xor_assoc, BitVec.xor_self, BitVec.xor_zero]
  rw [this, xorBlock_left]

/-- C164: whoever knows the initial vector of the next message (`iv'`) and may choose that message tests guesses for blocks of
an earlier message: to test whether its block `i` was `g`, they ask for the encryption of the xor of `g`, the ciphertext block
before it (or the initial vector), and `iv'`. The first block of the answer is ciphertext block `i` exactly if the guess is
right. Holds for all ciphers, keys, messages, blocks, vectors and guesses. -/
theorem C164_guess {N : Nat} (hN : 1 ≤ N) (c : BlockCipher N) (hc : Invertible c) (iv : Vector U8 N) (plaintext : List U8) :
    ∃ bs os : List (Vector U8 N), bytesOf bs = padded N plaintext ∧ os.length = bs.length ∧
      blockEncrypt (cbc N) c iv plaintext = ⟨bytesOf os, .ok ()⟩ ∧
      ∀ i, ∀ (hi : i < os.length) (hbi : i < bs.length) (hpi : i < (iv :: os).length) (iv' g : Vector U8 N),
        (blockEncrypt (cbc N) c iv' (xorBlock (xorBlock g (iv :: os)[i]) iv').toList).emitted.take N = os[i].toList ↔
          g = bs[i] := by
  obtain ⟨enc, he, hinj⟩ := invertible_enc hc
  obtain ⟨bs, os, h1, h2, h3, h4⟩ := cbc_blocks hN c enc he iv plaintext
  refine ⟨bs, os, h1, h2, h3, fun i hi hbi hpi iv' g => ?_⟩
  generalize hq : xorBlock (xorBlock g (iv :: os)[i]) iv' = q
  obtain ⟨bs', os', h1', h2', h3', h4'⟩ := cbc_blocks hN c enc he iv' q.toList
  -- the question is the first block of its own padded form
  have hlen : 0 < bs'.length := by
    rcases Nat.eq_zero_or_pos bs'.length with h | h
    · have := congrArg List.length h1'
      rw [length_bytesOf, h, padded] at this
      simp at this
      omega
    · exact h
  obtain ⟨b, bs'', rfl⟩ := List.exists_cons_of_length_pos hlen
  obtain ⟨o, os'', rfl⟩ := List.exists_cons_of_length_pos (by omega : 0 < os'.length)
  have hb : b = q := by
    have := congrArg (List.take N) h1'
    rw [padded, bytesOf, List.flatMap_cons, List.take_left' (by simp), List.take_left' (by simp)] at this
    exact Vector.toList_inj.1 this
  have ho := h4' 0 (by simp) (by simp) (by simp)
  simp only [List.getElem_cons_zero] at ho
  rw [h3']
  dsimp only
  rw [bytesOf, List.flatMap_cons, List.take_left' (by simp), Vector.toList_inj, ho, hb, ← hq, h4 i hbi hi hpi,
    hinj.eq_iff, xorBlock_swap]

/-- C164: whoever sees what a ciphertext of their choice decrypts to under CBC learns the initial vector: `a, 0, a`, followed by
anything, decrypts to blocks whose first and third differ by it. So the vector must not be the key. -/
theorem C164_vector {N : Nat} (hN : 1 ≤ N) (c : BlockCipher N) (hc : Invertible c) (iv a : Vector U8 N)
    (back : List (Vector U8 N)) (hback : back ≠ []) :
    ∃ p1 p2 p3 : Vector U8 N, ∃ after,
      (blockDecrypt (cbc N) c iv (bytesOf (a :: Vector.replicate N 0#8 :: a :: back))).emitted =
        p1.toList ++ p2.toList ++ p3.toList ++ after ∧ xorBlock p1 p3 = iv := by
  obtain ⟨q, hq⟩ := decrypt_total hc a
  obtain ⟨z, hz⟩ := decrypt_total hc (Vector.replicate N 0#8)
  have h : ∀ s, (cbc N).decryptBlock c s a = .ok (xorBlock q s, a) := fun s => by simp only [cbc, hq, Except.map]
  have h' : ∀ s, (cbc N).decryptBlock c s (Vector.replicate N 0#8) = .ok (xorBlock z s, Vector.replicate N 0#8) :=
    fun s => by simp only [cbc, hz, Except.map]
  rw [decrypt_cons hN _ c (cbc_total c hc) (h iv) _ (by simp), decrypt_cons hN _ c (cbc_total c hc) (h' a) _ (by simp),
    decrypt_cons hN _ c (cbc_total c hc) (h _) back hback]
  refine ⟨xorBlock q iv, xorBlock z a, xorBlock q (Vector.replicate N 0#8), (blockDecrypt (cbc N) c a (bytesOf back)).emitted,
    by simp only [List.append_assoc], ?_⟩
  apply Vector.ext
  intro i hi
  simp only [xorBlock, Vector.getElem_ofFn, Fin.getElem_fin, Vector.getElem_replicate, BitVec.xor_zero]
  rw [BitVec.xor_comm q[i], BitVec.xor_assoc, BitVec.xor_self]
  exact BitVec.xor_zero

/-- Not vacuous: the ciphers of the crate (C121), and a toy cipher run by the kernel. The second block of the message was
`[3, 4]`; with `[7, 7]` as the next initial vector the right guess gives the ciphertext block back and a wrong one does not. -/
example {k : Aes.Aes} (hk : BuiltAes k) (iv a : Vector U8 16) (back : List (Vector U8 16)) (hback : back ≠ []) :
    ∃ p1 p2 p3 : Vector U8 16, ∃ after,
      (blockDecrypt (cbc 16) (Aes.cipher k) iv (bytesOf (a :: Vector.replicate 16 0#8 :: a :: back))).emitted =
        p1.toList ++ p2.toList ++ p3.toList ++ after ∧ xorBlock p1 p3 = iv :=
  C164_vector (by omega) _ (C121_ciphers.1 k hk) iv a back hback
example : (blockEncrypt (cbc 2) (revCipher 2) #v[9, 5] [1, 2, 3, 4]).emitted = [7, 8, 12, 4, 6, 14] ∧
    (blockEncrypt (cbc 2) (revCipher 2) #v[7, 7] (xorBlock (xorBlock #v[3, 4] #v[7, 8]) #v[7, 7]).toList).emitted.take 2 = [12, 4] ∧
    (blockEncrypt (cbc 2) (revCipher 2) #v[7, 7] (xorBlock (xorBlock #v[3, 5] #v[7, 8]) #v[7, 7]).toList).emitted.take 2 = [13, 4] ∧
    (blockDecrypt (cbc 2) (revCipher 2) #v[9, 5] (bytesOf [#v[1, 2], #v[0, 0], #v[1, 2], #v[5, 5]])).emitted.take 6 =
      [11, 4, 1, 2, 2, 1] ∧ xorBlock #v[11, 4] #v[2, 1] = (#v[9, 5] : Vector U8 2) := by
  decide +kernel

end Verif.Props
