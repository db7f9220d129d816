import Verif.Props.PaddingOracle
import Verif.Spec.Modes
import Verif.Spec.Modified

/-! # C154: what modified ciphertexts decrypt to

NIST SP 800-38A, appendix D, for the modes of C121 and C146 under this crate's `decrypt`. -/

namespace Verif.Props
open Verif Verif.Model Verif.Spec

theorem decrypt_append {N : Nat} (hN : 1 ≤ N) {σ : Type} (m : Mode N σ) (c : BlockCipher N)
    (htot : ∀ s b, ∃ o s', m.decryptBlock c s b = .ok (o, s')) {s s1 : σ} {xs os : List (Vector U8 N)}
    (h : Steps (m.decryptBlock c) s xs os s1) (ys : List (Vector U8 N)) (hys : ys ≠ []) :
    blockDecrypt m c s (bytesOf (xs ++ ys)) =
      ⟨bytesOf os ++ (blockDecrypt m c s1 (bytesOf ys)).emitted, (blockDecrypt m c s1 (bytesOf ys)).result⟩ := by
  obtain ⟨ps, s2, h2⟩ := steps_total htot s1 ys
  have hl := Steps.length h2
  have hps : ps ≠ [] := by
    rintro rfl
    exact hys (List.length_eq_zero_iff.1 (by simpa using hl.symm))
  obtain ⟨qs, last, rfl⟩ : ∃ qs last, ps = qs ++ [last] :=
    ⟨ps.dropLast, ps.getLast hps, (List.dropLast_append_getLast hps).symm⟩
  have h3 := steps_append h h2
  rw [← List.append_assoc] at h3
  unfold bytesOf
  rw [blockDecrypt_steps m c hN _ _ _ h3, blockDecrypt_steps m c hN _ _ _ h2]
  split
  · simp
  · simp

/-- One more block in front. -/
theorem decrypt_cons {N : Nat} (hN : 1 ≤ N) {σ : Type} (m : Mode N σ) (c : BlockCipher N)
    (htot : ∀ s b, ∃ o s', m.decryptBlock c s b = .ok (o, s')) {s s1 : σ} {b o : Vector U8 N}
    (h : m.decryptBlock c s b = .ok (o, s1)) (ys : List (Vector U8 N)) (hys : ys ≠ []) :
    blockDecrypt m c s (bytesOf (b :: ys)) =
      ⟨o.toList ++ (blockDecrypt m c s1 (bytesOf ys)).emitted, (blockDecrypt m c s1 (bytesOf ys)).result⟩ := by
  have := decrypt_append hN m c htot (.cons h (.nil s1)) ys hys
  simpa [bytesOf] using this

theorem length_bytesOf {N : Nat} (bs : List (Vector U8 N)) : (bytesOf bs).length = N * bs.length := by
  unfold bytesOf
  rw [length_flatMap_toList, Nat.mul_comm]

theorem xorBlock_flip {N : Nat} (o a a' : Vector U8 N) : xorBlock o a' = xorBlock (xorBlock o a) (xorBlock a a') := by
  apply Vector.ext
  intro i hi
  simp only [xorBlock, Vector.getElem_ofFn, Fin.getElem_fin]
  rw [BitVec.xor_assoc, ← BitVec.xor_assoc (a[i]), BitVec.xor_self, BitVec.zero_xor]

theorem xorBlock_flip' {N : Nat} (k a a' : Vector U8 N) : xorBlock a' k = xorBlock (xorBlock a k) (xorBlock a a') := by
  apply Vector.ext
  intro i hi
  simp only [xorBlock, Vector.getElem_ofFn, Fin.getElem_fin]
  rw [BitVec.xor_comm (a[i]) (k[i]), BitVec.xor_assoc, ← BitVec.xor_assoc (a[i]), BitVec.xor_self, BitVec.zero_xor,
    BitVec.xor_comm]

theorem xorBlock_left {N : Nat} (s r r' : Vector U8 N) : xorBlock r' s = xorBlock r s ↔ r' = r := by
  refine ⟨fun h => ?_, fun h => by rw [h]⟩
  apply Vector.ext
  intro i hi
  have := congrArg (fun v : Vector U8 N => v[i]) h
  simp only [xorBlock, Vector.getElem_ofFn, Fin.getElem_fin] at this
  exact BitVec.xor_left_inj _ |>.1 this

theorem xorBlock_right {N : Nat} (s r r' : Vector U8 N) : xorBlock s r' = xorBlock s r ↔ r' = r := by
  have h : ∀ a b : Vector U8 N, xorBlock a b = xorBlock b a := by
    intro a b
    apply Vector.ext
    intro i hi
    simp only [xorBlock, Vector.getElem_ofFn, BitVec.xor_comm]
  rw [h s r', h s r]
  exact xorBlock_left s r r'

theorem encrypt_changed {N : Nat} {c : BlockCipher N} (hc : Invertible c) {a a' p p' : Vector U8 N}
    (h : c.encrypt a = .ok p) (h' : c.encrypt a' = .ok p') : Changed a a' p p' := by
  refine ⟨fun e => ?_, fun e => ?_⟩
  · subst e
    obtain ⟨o, h1, h2⟩ := hc a
    obtain ⟨o', h1', h2'⟩ := hc a'
    rw [h] at h1
    rw [h'] at h1'
    cases h1
    cases h1'
    rw [h2] at h2'
    exact (Except.ok.inj h2').symm
  · subst e
    rw [h] at h'
    exact (Except.ok.inj h').symm

theorem encrypt_onto {N : Nat} {c : BlockCipher N} (hc : Invertible c) (b : Vector U8 N) : ∃ a, c.encrypt a = .ok b := by
  have : Finite U8 := Finite.of_injective (fun b : U8 => (⟨b.toNat, b.isLt⟩ : Fin 256)) fun a b h =>
    BitVec.eq_of_toNat_eq (congrArg Fin.val h)
  have : Finite (Vector U8 N) := Finite.of_injective (fun v : Vector U8 N => fun i : Fin N => v[i]) fun a b h =>
    Vector.ext fun i hi => congrFun h ⟨i, hi⟩
  obtain ⟨enc, h1, h2⟩ := invertible_enc hc
  obtain ⟨a, ha⟩ := (Finite.injective_iff_surjective.1 h2) b
  exact ⟨a, by rw [h1, ha]⟩

theorem decrypt_changed {N : Nat} {c : BlockCipher N} (hc : Invertible c) {a a' p p' : Vector U8 N}
    (h : c.decrypt a = .ok p) (h' : c.decrypt a' = .ok p') : Changed a a' p p' := by
  obtain ⟨x, hx⟩ := encrypt_onto hc a
  obtain ⟨x', hx'⟩ := encrypt_onto hc a'
  obtain ⟨o, h1, h2⟩ := hc x
  obtain ⟨o', h1', h2'⟩ := hc x'
  rw [hx] at h1
  rw [hx'] at h1'
  cases h1
  cases h1'
  rw [h] at h2
  rw [h'] at h2'
  cases h2
  cases h2'
  exact (encrypt_changed hc hx hx').symm

section
variable {N : Nat} (c : BlockCipher N) (hc : Invertible c)
include hc

theorem ecb_total (s : Unit) (b : Vector U8 N) : ∃ o s', (ecb N).decryptBlock c s b = .ok (o, s') := by
  obtain ⟨r, hr⟩ := decrypt_total hc b
  exact ⟨r, (), by simp only [ecb, hr, Except.map]⟩

theorem cbc_total (s b : Vector U8 N) : ∃ o s', (cbc N).decryptBlock c s b = .ok (o, s') := by
  obtain ⟨r, hr⟩ := decrypt_total hc b
  exact ⟨xorBlock r s, b, by simp only [cbc, hr, Except.map]⟩

theorem cfb_total (s b : Vector U8 N) : ∃ o s', (cfb N).decryptBlock c s b = .ok (o, s') := by
  obtain ⟨k, hk, _⟩ := hc s
  exact ⟨xorBlock b k, b, by simp only [cfb, hk, Except.map]⟩

theorem ofb_total (s b : Vector U8 N) : ∃ o s', (ofb N).decryptBlock c s b = .ok (o, s') := by
  obtain ⟨k, hk, _⟩ := hc s
  exact ⟨xorBlock b k, k, by simp only [ofb, hk, Except.map]⟩

theorem ctr_total (s b : Vector U8 N) : ∃ o s', (ctr N).decryptBlock c s b = .ok (o, s') := by
  obtain ⟨k, hk, _⟩ := hc s
  exact ⟨xorBlock b k, natBlock N (blockNat s + 1), by simp only [ctr, hk, Except.map]⟩

end

/-- The common part: a change in a block, seen in that block and the next. -/
theorem differ {N : Nat} (hN : 1 ≤ N) {σ : Type} (m : Mode N σ) (c : BlockCipher N)
    (htot : ∀ s b, ∃ o s', m.decryptBlock c s b = .ok (o, s')) (first second : Vector U8 N → Vector U8 N → Prop)
    (a a' b : Vector U8 N)
    (h : ∀ s, ∃ p p' q q' s1 s1' s2, m.decryptBlock c s a = .ok (p, s1) ∧ m.decryptBlock c s a' = .ok (p', s1') ∧
      m.decryptBlock c s1 b = .ok (q, s2) ∧ m.decryptBlock c s1' b = .ok (q', s2) ∧ first p p' ∧ second q q')
    (s : σ) (front back : List (Vector U8 N)) (hback : back ≠ []) :
    DifferIn front.length first second (blockDecrypt m c s (bytesOf (front ++ a :: b :: back)))
      (blockDecrypt m c s (bytesOf (front ++ a' :: b :: back))) := by
  obtain ⟨os, s0, h0⟩ := steps_total htot s front
  obtain ⟨p, p', q, q', s1, s1', s2, h1, h2, h3, h4, h5, h6⟩ := h s0
  rw [decrypt_append hN m c htot h0 _ (by simp), decrypt_append hN m c htot h0 _ (by simp),
    decrypt_cons hN m c htot h1 _ (by simp), decrypt_cons hN m c htot h2 _ (by simp),
    decrypt_cons hN m c htot h3 _ hback, decrypt_cons hN m c htot h4 _ hback]
  refine ⟨⟨bytesOf os, (blockDecrypt m c s2 (bytesOf back)).emitted, p, p', q, q', ?_, by simp, by simp, h5, h6⟩, rfl⟩
  rw [length_bytesOf, ← Steps.length h0]

section
variable {N : Nat} (hN : 1 ≤ N) (c : BlockCipher N) (hc : Invertible c) (front back : List (Vector U8 N)) (hback : back ≠ [])
  (a a' b : Vector U8 N)
include hN hc hback

/-- C154: under ECB a changed block only changes the block that it decrypts to. -/
theorem C154_ecb : DifferIn front.length (Changed a a') Same (blockDecrypt (ecb N) c () (bytesOf (front ++ a :: b :: back)))
      (blockDecrypt (ecb N) c () (bytesOf (front ++ a' :: b :: back))) := by
  refine differ hN (ecb N) c (ecb_total c hc) _ _ a a' b ?_ () front back hback
  intro s
  obtain ⟨r, hr⟩ := decrypt_total hc a
  obtain ⟨r', hr'⟩ := decrypt_total hc a'
  obtain ⟨q, hq⟩ := decrypt_total hc b
  exact ⟨r, r', q, q, (), (), (), by simp only [ecb, hr, Except.map], by simp only [ecb, hr', Except.map],
    by simp only [ecb, hq, Except.map], by simp only [ecb, hq, Except.map],
    decrypt_changed hc hr hr', rfl⟩

/-- C154: under CBC a changed block also flips, in the next block, exactly the bits that were flipped in it. -/
theorem C154_cbc (iv : Vector U8 N) : DifferIn front.length (Changed a a') (Flipped a a')
      (blockDecrypt (cbc N) c iv (bytesOf (front ++ a :: b :: back)))
      (blockDecrypt (cbc N) c iv (bytesOf (front ++ a' :: b :: back))) := by
  refine differ hN (cbc N) c (cbc_total c hc) _ _ a a' b ?_ iv front back hback
  intro s
  obtain ⟨r, hr⟩ := decrypt_total hc a
  obtain ⟨r', hr'⟩ := decrypt_total hc a'
  obtain ⟨q, hq⟩ := decrypt_total hc b
  exact ⟨xorBlock r s, xorBlock r' s, xorBlock q a, xorBlock q a', a, a', b, by simp only [cbc, hr, Except.map],
    by simp only [cbc, hr', Except.map], by simp only [cbc, hq, Except.map], by simp only [cbc, hq, Except.map],
    (xorBlock_left s r r').trans (decrypt_changed hc hr hr'), xorBlock_flip q a a'⟩

/-- C154: under CFB it is the other way round. -/
theorem C154_cfb (iv : Vector U8 N) : DifferIn front.length (Flipped a a') (Changed a a')
      (blockDecrypt (cfb N) c iv (bytesOf (front ++ a :: b :: back)))
      (blockDecrypt (cfb N) c iv (bytesOf (front ++ a' :: b :: back))) := by
  refine differ hN (cfb N) c (cfb_total c hc) _ _ a a' b ?_ iv front back hback
  intro s
  obtain ⟨k, hk, _⟩ := hc s
  obtain ⟨k1, hk1, _⟩ := hc a
  obtain ⟨k2, hk2, _⟩ := hc a'
  exact ⟨xorBlock a k, xorBlock a' k, xorBlock b k1, xorBlock b k2, a, a', b, by simp only [cfb, hk, Except.map],
    by simp only [cfb, hk, Except.map], by simp only [cfb, hk1, Except.map], by simp only [cfb, hk2, Except.map],
    xorBlock_flip' k a a', (xorBlock_right b k1 k2).trans (encrypt_changed hc hk1 hk2)⟩

/-- C154: under OFB the same bits are flipped in the message and nothing else happens. -/
theorem C154_ofb (iv : Vector U8 N) : DifferIn front.length (Flipped a a') Same
      (blockDecrypt (ofb N) c iv (bytesOf (front ++ a :: b :: back)))
      (blockDecrypt (ofb N) c iv (bytesOf (front ++ a' :: b :: back))) := by
  refine differ hN (ofb N) c (ofb_total c hc) _ _ a a' b ?_ iv front back hback
  intro s
  obtain ⟨k, hk, _⟩ := hc s
  obtain ⟨k1, hk1, _⟩ := hc k
  exact ⟨xorBlock a k, xorBlock a' k, xorBlock b k1, xorBlock b k1, k, k, k1, by simp only [ofb, hk, Except.map],
    by simp only [ofb, hk, Except.map], by simp only [ofb, hk1, Except.map], by simp only [ofb, hk1, Except.map],
    xorBlock_flip' k a a', rfl⟩

/-- C154: under CTR too. -/
theorem C154_ctr (counter : Vector U8 N) : DifferIn front.length (Flipped a a') Same
      (blockDecrypt (ctr N) c counter (bytesOf (front ++ a :: b :: back)))
      (blockDecrypt (ctr N) c counter (bytesOf (front ++ a' :: b :: back))) := by
  refine differ hN (ctr N) c (ctr_total c hc) _ _ a a' b ?_ counter front back hback
  intro s
  obtain ⟨k, hk, _⟩ := hc s
  obtain ⟨k1, hk1, _⟩ := hc (natBlock N (blockNat s + 1))
  exact ⟨xorBlock a k, xorBlock a' k, xorBlock b k1, xorBlock b k1, natBlock N (blockNat s + 1),
    natBlock N (blockNat s + 1), natBlock N (blockNat (natBlock N (blockNat s + 1)) + 1), by simp only [ctr, hk, Except.map],
    by simp only [ctr, hk, Except.map], by simp only [ctr, hk1, Except.map], by simp only [ctr, hk1, Except.map],
    xorBlock_flip' k a a', rfl⟩

/-- C154: whoever chooses the initial vector of CBC chooses which bits of the first block are flipped. -/
theorem C154_cbc_iv (iv iv' : Vector U8 N) : ∃ p : Vector U8 N, ∃ after,
    (blockDecrypt (cbc N) c iv (bytesOf (b :: back))).emitted = p.toList ++ after ∧
    (blockDecrypt (cbc N) c iv' (bytesOf (b :: back))).emitted = (xorBlock p (xorBlock iv iv')).toList ++ after ∧
    (blockDecrypt (cbc N) c iv' (bytesOf (b :: back))).result = (blockDecrypt (cbc N) c iv (bytesOf (b :: back))).result := by
  obtain ⟨q, hq⟩ := decrypt_total hc b
  have h : ∀ s, (cbc N).decryptBlock c s b = .ok (xorBlock q s, b) := fun s => by simp only [cbc, hq, Except.map]
  rw [decrypt_cons hN _ c (cbc_total c hc) (h iv) back hback, decrypt_cons hN _ c (cbc_total c hc) (h iv') back hback]
  exact ⟨xorBlock q iv, _, rfl, by rw [← xorBlock_flip], rfl⟩

/-- C154: CBC and CFB find the way back after lost blocks: if only the end `a, back` of a ciphertext arrives then, whatever
initial vector is used, everything after its first block comes out as it would have, and the outcome is the same. -/
theorem C154_resync (iv iv' : Vector U8 N) (m : Mode N (Vector U8 N)) (hm : m = cbc N ∨ m = cfb N) :
    ∃ before first after, before.length = N * (front.length + 1) ∧ first.length = N ∧
    (blockDecrypt m c iv (bytesOf (front ++ a :: back))).emitted = before ++ after ∧
    (blockDecrypt m c iv' (bytesOf (a :: back))).emitted = first ++ after ∧
    (blockDecrypt m c iv' (bytesOf (a :: back))).result = (blockDecrypt m c iv (bytesOf (front ++ a :: back))).result := by
  have htot : ∀ s b, ∃ o s', m.decryptBlock c s b = .ok (o, s') := by
    rcases hm with rfl | rfl
    · exact cbc_total c hc
    · exact cfb_total c hc
  have h : ∀ s, ∃ o, m.decryptBlock c s a = .ok (o, a) := by
    intro s
    rcases hm with rfl | rfl
    · obtain ⟨q, hq⟩ := decrypt_total hc a
      exact ⟨xorBlock q s, by simp only [cbc, hq, Except.map]⟩
    · obtain ⟨k, hk, _⟩ := hc s
      exact ⟨xorBlock a k, by simp only [cfb, hk, Except.map]⟩
  obtain ⟨os, s0, h0⟩ := steps_total htot iv front
  obtain ⟨o, ho⟩ := h s0
  obtain ⟨o', ho'⟩ := h iv'
  rw [decrypt_append hN m c htot h0 _ (by simp), decrypt_cons hN m c htot ho back hback,
    decrypt_cons hN m c htot ho' back hback]
  refine ⟨bytesOf os ++ o.toList, o'.toList, _, ?_, by simp, by simp, rfl, rfl⟩
  rw [List.length_append, length_bytesOf, ← Steps.length h0, Vector.length_toList, Nat.mul_add, Nat.mul_one]

end

/-- Not vacuous: AES with any key; and a decryption with a toy cipher run by the kernel, with one bit of the first block
changed. -/
example {k : Aes.Aes} (hk : BuiltAes k) (front back : List (Vector U8 16)) (hback : back ≠ []) (iv a a' b : Vector U8 16) :
    DifferIn front.length (Changed a a') (Flipped a a') (blockDecrypt (cbc 16) (Aes.cipher k) iv (bytesOf (front ++ a :: b :: back)))
      (blockDecrypt (cbc 16) (Aes.cipher k) iv (bytesOf (front ++ a' :: b :: back))) :=
  C154_cbc (by omega) _ (C121_ciphers.1 k hk) front back hback a a' b iv
example : blockDecrypt (cbc 2) (revCipher 2) #v[0, 0] (bytesOf [#v[1, 2], #v[3, 4], #v[5, 6]]) = ⟨[2, 1, 5, 1, 5], .ok ()⟩ ∧
    blockDecrypt (cbc 2) (revCipher 2) #v[0, 0] (bytesOf [#v[1, 3], #v[3, 4], #v[5, 6]]) = ⟨[3, 1, 5, 0, 5], .ok ()⟩ ∧
    blockDecrypt (cbc 2) (revCipher 2) #v[0, 0] (bytesOf [#v[1, 2], #v[3, 4], #v[9, 6]]) = ⟨[2, 1, 5, 1], .error .explicit⟩ := by
  decide +kernel

end Verif.Props
