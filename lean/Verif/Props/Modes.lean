import Verif.Props.Block
import Verif.Props.Aes
import Verif.Props.Rc2
import Verif.Props.Rc4
import Verif.Props.Rc5
import Mathlib.Data.List.Forall2
import Mathlib.Dynamics.PeriodicPts.Defs

/-! # C85–C89: whole messages under the standard ciphers, and what the modes reveal -/

namespace Verif.Props
open Verif Model Spec
open _root_.Verif.Spec.Aes (KeyExpansion ofBlock)

/-! ## C85 -/

/-- The message completed by PKCS#7 padding to whole blocks (RFC 5652 §6.3). -/
def padded (N : Nat) (m : List U8) : List U8 :=
  m ++ List.replicate (N - m.length % N) (BitVec.ofNat 8 (N - m.length % N))

/-- C85, for every cipher: if the cipher turns every block `b` into a block `o` with `Std b o`, then ECB encryption emits,
for the blocks of the padded message in order, blocks that stand in this relation, and nothing else. -/
theorem C85_ecb {N : Nat} (hN : 1 ≤ N) (c : BlockCipher N) (Std : Vector U8 N → Vector U8 N → Prop)
    (hc : ∀ b, ∃ o, c.encrypt b = .ok o ∧ Std b o) (plaintext : List U8) :
    ∃ bs os : List (Vector U8 N), bs.flatMap Vector.toList = padded N plaintext ∧ List.Forall₂ Std bs os ∧
      blockEncrypt (ecb N) c () plaintext = ⟨os.flatMap Vector.toList, .ok ()⟩ := by
  choose enc h1 h2 using hc
  obtain ⟨bs, tail, e, ht, hb⟩ := exists_chunks hN plaintext
  have ht' : tail.length < N := ht ▸ Nat.mod_lt _ hN
  obtain ⟨last, _, hl⟩ := Pad.pkcsPad_ok ht'
  refine ⟨bs ++ [last], (bs ++ [last]).map enc, ?_, ?_, ?_⟩
  · unfold padded
    rw [List.flatMap_append, e, ← e, ← ht, e]
    simp [hl, pkcs7]
  · rw [List.forall₂_map_right_iff]
    exact List.forall₂_same.2 fun b _ => h2 b
  · rw [e, C03_ecb_layout c enc h1 bs tail ht' last hl]
    simp

/-- C85: AES-128 in ECB mode is FIPS 197 on the blocks of the padded message. -/
theorem C85_aes128_ecb (key : Vector U8 16) : ∃ c S w, Aes.with128 key = .ok c ∧ Spec.Aes.IsSbox S ∧
    KeyExpansion S 4 10 key.toList w ∧ ∀ plaintext : List U8, ∃ bs os : List (Vector U8 16),
      bs.flatMap Vector.toList = padded 16 plaintext ∧
      List.Forall₂ (fun b o => ofBlock o = Spec.Aes.cipher S w 10 (ofBlock b)) bs os ∧
      blockEncrypt (ecb 16) (Aes.cipher c) () plaintext = ⟨os.flatMap Vector.toList, .ok ()⟩ := by
  obtain ⟨c, S, w, h1, h2, h3, h4⟩ := C21_aes128_is_fips197 key
  exact ⟨c, S, w, h1, h2, h3, fun m => C85_ecb (by decide) (Aes.cipher c) _ h4 m⟩

/-- C85: AES-192. -/
theorem C85_aes192_ecb (key : Vector U8 24) : ∃ c S w, Aes.with192 key = .ok c ∧ Spec.Aes.IsSbox S ∧
    KeyExpansion S 6 12 key.toList w ∧ ∀ plaintext : List U8, ∃ bs os : List (Vector U8 16),
      bs.flatMap Vector.toList = padded 16 plaintext ∧
      List.Forall₂ (fun b o => ofBlock o = Spec.Aes.cipher S w 12 (ofBlock b)) bs os ∧
      blockEncrypt (ecb 16) (Aes.cipher c) () plaintext = ⟨os.flatMap Vector.toList, .ok ()⟩ := by
  obtain ⟨c, S, w, h1, h2, h3, h4⟩ := C21_aes192_is_fips197 key
  exact ⟨c, S, w, h1, h2, h3, fun m => C85_ecb (by decide) (Aes.cipher c) _ h4 m⟩

/-- C85: AES-256. -/
theorem C85_aes256_ecb (key : Vector U8 32) : ∃ c S w, Aes.with256 key = .ok c ∧ Spec.Aes.IsSbox S ∧
    KeyExpansion S 8 14 key.toList w ∧ ∀ plaintext : List U8, ∃ bs os : List (Vector U8 16),
      bs.flatMap Vector.toList = padded 16 plaintext ∧
      List.Forall₂ (fun b o => ofBlock o = Spec.Aes.cipher S w 14 (ofBlock b)) bs os ∧
      blockEncrypt (ecb 16) (Aes.cipher c) () plaintext = ⟨os.flatMap Vector.toList, .ok ()⟩ := by
  obtain ⟨c, S, w, h1, h2, h3, h4⟩ := C21_aes256_is_fips197 key
  exact ⟨c, S, w, h1, h2, h3, fun m => C85_ecb (by decide) (Aes.cipher c) _ h4 m⟩

/-- C85: RC5-32/r/b. -/
theorem C85_rc5_ecb (key : List U8) (h1 : 1 ≤ key.length) (h2 : key.length ≤ 255) (rounds : U8) :
    ∃ k, Rc5.new key rounds = .ok k ∧ ∀ plaintext : List U8, ∃ bs os : List (Vector U8 8),
      bs.flatMap Vector.toList = padded 8 plaintext ∧
      List.Forall₂ (fun b o => o.toList = Spec.Rc5.encBlock key rounds.toNat b) bs os ∧
      blockEncrypt (ecb 8) (Rc5.cipher k) () plaintext = ⟨os.flatMap Vector.toList, .ok ()⟩ := by
  obtain ⟨k, hk, h⟩ := C16_rc5_spec key h1 h2 rounds
  exact ⟨k, hk, fun m => C85_ecb (by decide) (Rc5.cipher k) _ h m⟩

/-- C85: RC2 (RFC 2268). -/
theorem C85_rc2_ecb (key : List U8) (bits : U16) (h1 : 1 ≤ key.length) (h2 : key.length ≤ 128)
    (h3 : 1 ≤ bits.toNat) (h4 : bits.toNat ≤ 1024) :
    ∃ k L1 L2, ∃ K : Nat → U16, Rc2.fromKey key bits = .ok k ∧
      Spec.Rc2.Expansion key bits.toNat L1 L2 ∧ (∀ i < 64, K i = Spec.Rc2.keyWord L2 i) ∧
      ∀ plaintext : List U8, ∃ bs os : List (Vector U8 8), bs.flatMap Vector.toList = padded 8 plaintext ∧
        List.Forall₂ (fun b o => o.toList = Spec.Rc2.ofRegs (Spec.Rc2.encRegs K (Spec.Rc2.toRegs b))) bs os ∧
        blockEncrypt (ecb 8) (Rc2.cipher k) () plaintext = ⟨os.flatMap Vector.toList, .ok ()⟩ := by
  obtain ⟨k, L1, L2, K, e1, e2, e3, e4⟩ := C19_rc2_spec key bits h1 h2 h3 h4
  exact ⟨k, L1, L2, K, e1, e2, e3, fun m => C85_ecb (by decide) (Rc2.cipher k) _ (fun b => ⟨_, rfl, e4 b⟩) m⟩

example : padded 4 [1, 2, 3, 4, 5] = [1, 2, 3, 4, 5, 3, 3, 3] ∧ padded 2 [1, 2] = [1, 2, 2, 2] := by decide

/-! ## C86 -/

theorem invertible_enc {N : Nat} {c : BlockCipher N} (hc : Invertible c) :
    ∃ enc : Vector U8 N → Vector U8 N, (∀ b, c.encrypt b = .ok (enc b)) ∧ Function.Injective enc := by
  choose enc h1 h2 using hc
  refine ⟨enc, h1, fun a b h => ?_⟩
  have := h2 a
  rw [h, h2 b] at this
  exact (Except.ok.inj this).symm

theorem take_block {N : Nat} (bs : List (Vector U8 N)) (i : Nat) (hi : i < bs.length) :
    ((bs.flatMap Vector.toList).drop (N * i)).take N = bs[i].toList := by
  induction bs generalizing i with
  | nil => simp at hi
  | cons b bs ih =>
    cases i with
    | zero => simp
    | succ i =>
      have hi' : i < bs.length := by simpa using hi
      have e : N * (i + 1) = b.toList.length + N * i := by simp [Nat.mul_add, Nat.add_comm]
      rw [List.flatMap_cons, e, ← List.drop_drop, List.drop_left', ih i hi']
      · simp
      · rfl

/-- C86: under ECB, two ciphertext blocks of a message are equal exactly if the two blocks of the padded message are. -/
theorem C86_equal_blocks {N : Nat} (hN : 1 ≤ N) (c : BlockCipher N) (hc : Invertible c) (plaintext : List U8) (i j : Nat)
    (hi : i ≤ plaintext.length / N) (hj : j ≤ plaintext.length / N) :
    (((blockEncrypt (ecb N) c () plaintext).emitted.drop (N * i)).take N =
      ((blockEncrypt (ecb N) c () plaintext).emitted.drop (N * j)).take N) ↔
    (((padded N plaintext).drop (N * i)).take N = ((padded N plaintext).drop (N * j)).take N) := by
  obtain ⟨enc, h1, hinj⟩ := invertible_enc hc
  obtain ⟨bs, tail, e, ht, hb⟩ := exists_chunks hN plaintext
  have ht' : tail.length < N := ht ▸ Nat.mod_lt _ hN
  obtain ⟨last, _, hl⟩ := Pad.pkcsPad_ok ht'
  have hp : padded N plaintext = (bs ++ [last]).flatMap Vector.toList := by
    unfold padded
    rw [List.flatMap_append, e, ← e, ← ht, e]
    simp [hl, pkcs7]
  have hem : (blockEncrypt (ecb N) c () plaintext).emitted = ((bs ++ [last]).map enc).flatMap Vector.toList := by
    conv => lhs; rw [e]
    rw [C03_ecb_layout c enc h1 bs tail ht' last hl]
    simp
  have hi' : i < (bs ++ [last]).length := by simp; omega
  have hj' : j < (bs ++ [last]).length := by simp; omega
  rw [hp, hem, take_block _ i (by simpa using hi'), take_block _ j (by simpa using hj'), take_block _ i hi',
    take_block _ j hj', List.getElem_map, List.getElem_map, Vector.toList_inj, Vector.toList_inj]
  exact ⟨fun h => hinj h, fun h => by rw [h]⟩

/-- C86: ECB ciphertexts can be spliced at block boundaries: the first blocks of one ciphertext followed by the last blocks
of another decrypt, without any error, to the first blocks of the one message followed by the rest of the other. -/
theorem C86_splice {N : Nat} (hN : 1 ≤ N) (hN' : N ≤ 255) (c : BlockCipher N) (hc : Invertible c)
    (p1 q1 p2 q2 : List U8) (h1 : N ∣ p1.length) (h2 : N ∣ p2.length) :
    blockDecrypt (ecb N) c () ((blockEncrypt (ecb N) c () (p1 ++ q1)).emitted.take p1.length ++
      (blockEncrypt (ecb N) c () (p2 ++ q2)).emitted.drop p2.length) = ⟨p1 ++ q2, .ok ()⟩ := by
  obtain ⟨enc, he, hinj⟩ := invertible_enc hc
  have whole : ∀ p : List U8, N ∣ p.length → ∃ bs : List (Vector U8 N), p = bs.flatMap Vector.toList := by
    intro p hp
    obtain ⟨bs, tail, e, ht, _⟩ := exists_chunks hN p
    rw [Nat.mod_eq_zero_of_dvd hp] at ht
    rw [List.length_eq_zero_iff.1 ht, List.append_nil] at e
    exact ⟨bs, e⟩
  have form : ∀ (bs : List (Vector U8 N)) (q : List U8), ∃ r : List U8,
      (blockEncrypt (ecb N) c () q).emitted = r ∧
      (blockEncrypt (ecb N) c () (bs.flatMap Vector.toList ++ q)).emitted = (bs.map enc).flatMap Vector.toList ++ r := by
    intro bs q
    obtain ⟨cs, tail, e, ht, _⟩ := exists_chunks hN q
    have ht' : tail.length < N := ht ▸ Nat.mod_lt _ hN
    obtain ⟨last, _, hl⟩ := Pad.pkcsPad_ok ht'
    refine ⟨_, rfl, ?_⟩
    rw [e, C03_ecb_layout c enc he cs tail ht' last hl, ← List.append_assoc, ← List.flatMap_append,
      C03_ecb_layout c enc he (bs ++ cs) tail ht' last hl]
    simp
  obtain ⟨b1, rfl⟩ := whole p1 h1
  obtain ⟨b2, rfl⟩ := whole p2 h2
  obtain ⟨r1, _, e1⟩ := form b1 q1
  obtain ⟨r2, er2, e2⟩ := form b2 q2
  obtain ⟨r3, er3, e3⟩ := form b1 q2
  have hlen : ∀ bs : List (Vector U8 N), ((bs.map enc).flatMap Vector.toList).length = (bs.flatMap Vector.toList).length := by
    intro bs; rw [length_flatMap_toList, length_flatMap_toList, List.length_map]
  rw [e1, e2, List.take_left' (hlen b1), List.drop_left' (hlen b2), ← er2, er3, ← e3]
  exact (C01_ecb_roundtrip hN hN' c hc _).2

example : Invertible (revCipher 4) := revCipher_invertible 4
example : blockDecrypt (ecb 4) (revCipher 4) () ((blockEncrypt (ecb 4) (revCipher 4) () [1, 2, 4, 3, 7]).emitted.take 4 ++
    (blockEncrypt (ecb 4) (revCipher 4) () [9, 9, 9, 9, 5, 6]).emitted.drop 4) = ⟨[1, 2, 4, 3, 5, 6], .ok ()⟩ := by
  decide +kernel

/-! ## C87 -/

/-- Byte-wise xor. -/
def xorBytes (a b : List U8) : List U8 := List.zipWith (· ^^^ ·) a b

/-- C87: two messages of the same length encrypted from the same key position: the xor of the ciphertexts is the xor of the
messages. -/
theorem C87_key_reuse {σ : Type} (next : KeyIter σ) (s : σ) (m1 m2 : List U8) (hlen : m1.length = m2.length)
    (h : (streamEncrypt next s m1).result = .ok ()) :
    (streamEncrypt next s m2).result = .ok () ∧
    xorBytes (streamEncrypt next s m1).yielded (streamEncrypt next s m2).yielded = xorBytes m1 m2 := by
  induction m1 generalizing s m2 with
  | nil =>
    cases m2 with
    | nil => exact ⟨rfl, rfl⟩
    | cons _ _ => simp at hlen
  | cons a m1 ih =>
    cases m2 with
    | nil => simp at hlen
    | cons b m2 =>
      cases hn : next s with
      | mk k s' =>
        cases k with
        | none => simp [streamEncrypt, hn] at h
        | some k =>
          simp only [streamEncrypt, hn] at h
          obtain ⟨h1, h2⟩ := ih s' m2 (by simpa using hlen) h
          simp only [streamEncrypt, hn, h1, true_and]
          unfold xorBytes at h2 ⊢
          rw [List.zipWith_cons_cons, List.zipWith_cons_cons, h2]
          congr 1
          rw [BitVec.xor_comm k b, ← BitVec.xor_assoc, BitVec.xor_assoc k a b, BitVec.xor_comm k (a ^^^ b),
            BitVec.xor_assoc] <;> simp [BitVec.xor_assoc, BitVec.xor_comm]

/-- C87: flipping bits of the ciphertext flips exactly these bits of the decrypted message. -/
theorem C87_malleable {σ : Type} (next : KeyIter σ) (s : σ) (m delta : List U8) (hlen : delta.length = m.length)
    (h : (streamEncrypt next s m).result = .ok ()) :
    (streamEncrypt next s (xorBytes (streamEncrypt next s m).yielded delta)).yielded = xorBytes m delta := by
  induction m generalizing s delta with
  | nil =>
    cases delta with
    | nil => rfl
    | cons _ _ => simp at hlen
  | cons a m ih =>
    cases delta with
    | nil => simp at hlen
    | cons b delta =>
      cases hn : next s with
      | mk k s' =>
        cases k with
        | none => simp [streamEncrypt, hn] at h
        | some k =>
          simp only [streamEncrypt, hn] at h
          have h2 := ih s' delta (by simpa using hlen) h
          unfold xorBytes at h2 ⊢
          simp only [streamEncrypt, hn, List.zipWith_cons_cons, h2]
          congr 1
          rw [BitVec.xor_assoc k a b, ← BitVec.xor_assoc, BitVec.xor_self, BitVec.zero_xor]

/-- C87 for RC4: one key stream used for two messages. -/
theorem C87_rc4_key_reuse (key : List U8) (hkey : key ≠ []) (m1 m2 : List U8) (hlen : m1.length = m2.length) :
    ∃ ks c1 c2, Rc4.new key = .ok ks ∧ Rc4.encrypt ks m1 = .ok c1 ∧ Rc4.encrypt ks m2 = .ok c2 ∧
      xorBytes c1 c2 = xorBytes m1 m2 := by
  have hk : 0 < key.length := List.length_pos_iff.2 hkey
  obtain ⟨c1, h1, _, _⟩ := Rc4.encrypt_eq ⟨(Rc4.ksaN key hk 256 (by omega)).1, 0#8, 0#8⟩ m1
  obtain ⟨c2, h2, _, _⟩ := Rc4.encrypt_eq ⟨(Rc4.ksaN key hk 256 (by omega)).1, 0#8, 0#8⟩ m2
  refine ⟨_, c1, c2, Rc4.new_ok key hk, h1, h2, ?_⟩
  have key' : ∀ m c, Rc4.encrypt ⟨(Rc4.ksaN key hk 256 (by omega)).1, 0#8, 0#8⟩ m = .ok c →
      (streamEncrypt Rc4.next ⟨(Rc4.ksaN key hk 256 (by omega)).1, 0#8, 0#8⟩ m).result = .ok () ∧
      (streamEncrypt Rc4.next ⟨(Rc4.ksaN key hk 256 (by omega)).1, 0#8, 0#8⟩ m).yielded = c := by
    intro m c h
    unfold Rc4.encrypt at h
    simp only at h
    split at h
    · rename_i hr; exact ⟨hr, Except.ok.inj h⟩
    · cases h
  obtain ⟨r1, e1⟩ := key' m1 c1 h1
  obtain ⟨r2, e2⟩ := key' m2 c2 h2
  rw [← e1, ← e2]
  exact (C87_key_reuse Rc4.next _ m1 m2 hlen r1).2

/-- C87 for RC4: flipping bits of a ciphertext flips exactly these bits of the decrypted message. -/
theorem C87_rc4_malleable (key : List U8) (hkey : key ≠ []) (m delta : List U8) (hlen : delta.length = m.length) :
    ∃ ks c, Rc4.new key = .ok ks ∧ Rc4.encrypt ks m = .ok c ∧ Rc4.decrypt ks (xorBytes c delta) = .ok (xorBytes m delta) := by
  have hk : 0 < key.length := List.length_pos_iff.2 hkey
  have key' : ∀ m c, Rc4.encrypt ⟨(Rc4.ksaN key hk 256 (by omega)).1, 0#8, 0#8⟩ m = .ok c →
      (streamEncrypt Rc4.next ⟨(Rc4.ksaN key hk 256 (by omega)).1, 0#8, 0#8⟩ m).result = .ok () ∧
      (streamEncrypt Rc4.next ⟨(Rc4.ksaN key hk 256 (by omega)).1, 0#8, 0#8⟩ m).yielded = c := by
    intro m c h
    unfold Rc4.encrypt at h
    simp only at h
    split at h
    · rename_i hr; exact ⟨hr, Except.ok.inj h⟩
    · cases h
  obtain ⟨c, h1, _, _⟩ := Rc4.encrypt_eq ⟨(Rc4.ksaN key hk 256 (by omega)).1, 0#8, 0#8⟩ m
  obtain ⟨d, h2, _, _⟩ := Rc4.encrypt_eq ⟨(Rc4.ksaN key hk 256 (by omega)).1, 0#8, 0#8⟩ (xorBytes c delta)
  obtain ⟨r1, e1⟩ := key' m c h1
  obtain ⟨_, e2⟩ := key' _ d h2
  refine ⟨_, c, Rc4.new_ok key hk, h1, ?_⟩
  have := C87_malleable Rc4.next _ m delta hlen r1
  rw [e1, e2] at this
  rw [← this]
  exact h2

example : ∃ ks c, Rc4.new [1, 2, 3] = .ok ks ∧ Rc4.encrypt ks [7, 8] = .ok c ∧
    Rc4.decrypt ks (xorBytes c [0, 1]) = .ok [7, 9] :=
  C87_rc4_malleable [1, 2, 3] (by decide) [7, 8] [0, 1] rfl

example : (streamEncrypt listKeys [1, 2, 3] [7, 7]).result = .ok () ∧
    xorBytes (streamEncrypt listKeys [1, 2, 3] [7, 7]).yielded (streamEncrypt listKeys [1, 2, 3] [9, 8]).yielded =
      [14, 15] := by decide +kernel

/-! ## C88 -/

/-- C88: RC5 completes the key with zero bytes to whole 32-bit words, so keys that agree after this completion are the same
key. -/
theorem C88_rc5_key_zero_fill (key : List U8) (j : Nat) (rounds : U8) (hj : (key.length + j + 3) / 4 = (key.length + 3) / 4)
    (hlen : key.length + j ≤ 255) : Rc5.new (key ++ List.replicate j 0#8) rounds = Rc5.new key rounds := by
  have hw : ∀ (n : Nat) (key : List U8), key.length ≤ n → (key.length + j + 3) / 4 = (key.length + 3) / 4 →
      Rc5.keyWords (key ++ List.replicate j 0#8) = Rc5.keyWords key := by
    intro n
    induction n with
    | zero =>
      intro key hk hj
      have e := List.length_eq_zero_iff.1 (Nat.le_zero.1 hk)
      subst e
      have : j = 0 := by simp at hj; omega
      subst this; rfl
    | succ n ih =>
      intro key hk hj
      match key, hk, hj with
      | [], _, hj => have : j = 0 := by simp at hj; omega
                     subst this; rfl
      | [a], _, hj =>
        have : j ≤ 3 := by simp at hj; omega
        rcases (by omega : j = 0 ∨ j = 1 ∨ j = 2 ∨ j = 3) with rfl | rfl | rfl | rfl <;> rfl
      | [a, b], _, hj =>
        have : j ≤ 2 := by simp at hj; omega
        rcases (by omega : j = 0 ∨ j = 1 ∨ j = 2) with rfl | rfl | rfl <;> rfl
      | [a, b, c], _, hj =>
        have : j ≤ 1 := by simp at hj; omega
        rcases (by omega : j = 0 ∨ j = 1) with rfl | rfl <;> rfl
      | a :: b :: c :: d :: rest, hk, hj =>
        simp only [List.cons_append, Rc5.keyWords]
        rw [ih rest (by simp at hk; omega) (by simp at hj; omega)]
  unfold Rc5.new Rc5.expandKey
  rw [hw key.length key (Nat.le_refl _) hj]
  simp only [List.length_append, List.length_replicate, hj]
  rw [if_pos (by omega), if_pos (by omega)]

example : Rc5.new ([1, 2, 3, 4, 5] ++ List.replicate 3 0#8) 12 = Rc5.new [1, 2, 3, 4, 5] 12 :=
  C88_rc5_key_zero_fill _ 3 12 (by decide) (by decide)
example : Rc5.new [1, 2, 3, 4, 5, 0, 0, 0, 0] 1 ≠ Rc5.new [1, 2, 3, 4, 5] 1 := by decide +kernel

/-! ## C89 -/

/-- One step of the key stream, without its output. -/
def rc4Step (s : Rc4.KeyStream) : Rc4.KeyStream := (Rc4.next s).2

/-- C89: a state of the RC4 key stream has only one predecessor. -/
theorem C89_rc4_step_injective : Function.Injective rc4Step := by
  rintro ⟨S, x, y⟩ ⟨S', x', y'⟩ h
  simp only [rc4Step, Rc4.next, Rc4.nextKey, Rc4.KeyStream.mk.injEq] at h
  obtain ⟨h1, h2, h3⟩ := h
  have hx : x = x' := by
    have := congrArg (· - 1#8) h2
    simpa using this
  subst hx
  rw [← h3] at h1
  have hS : S = S' := by
    have := congrArg (fun t => Rc4.swap8 t (x + 1#8) (Rc4.at8 S (x + 1#8) + y)) h1
    simpa [Rc4.swap8] using this
  subst hS
  have hy : y = y' := by
    have := congrArg (· - Rc4.at8 S (x + 1#8)) h3
    simp only [BitVec.add_comm (Rc4.at8 S (x + 1#8))] at this
    simpa using this
  rw [hy]

/-- The degenerate states found by Finney: `j = i + 1` and `S[j] = 1`; from there the generator has a period of 65280
steps. -/
def Finney (s : Rc4.KeyStream) : Prop := s.y = s.x + 1#8 ∧ Rc4.at8 s.state s.y = 1#8

theorem finney_of_step (s : Rc4.KeyStream) (h : Finney (rc4Step s)) : Finney s := by
  obtain ⟨S, x, y⟩ := s
  simp only [Finney, rc4Step, Rc4.next, Rc4.nextKey] at h ⊢
  obtain ⟨h1, h2⟩ := h
  have hsw : Rc4.at8 (Rc4.swap8 S (x + 1#8) (Rc4.at8 S (x + 1#8) + y)) (Rc4.at8 S (x + 1#8) + y) = Rc4.at8 S (x + 1#8) := by
    unfold Rc4.at8 Rc4.swap8
    simp
  rw [hsw] at h2
  rw [h2] at h1
  have : y = x + 1#8 := by
    have := congrArg (· - 1#8) h1
    simp only [BitVec.add_comm 1#8 y] at this
    simpa using this
  rw [this]
  exact ⟨rfl, h2⟩

/-- C89: no key leads to a Finney state, after any number of bytes. -/
theorem C89_rc4_never_finney (key : List U8) (ks : Rc4.KeyStream) (hk : Rc4.new key = .ok ks) (n : Nat) :
    ¬ Finney (rc4Step^[n] ks) := by
  have h0 : ¬ Finney ks := by
    have hne : key ≠ [] := by rintro rfl; cases hk
    have hpos : 0 < key.length := List.length_pos_iff.2 hne
    rw [Rc4.new_ok key hpos] at hk
    have e := Except.ok.inj hk
    have hx : ks.x = 0#8 := by rw [← e]
    have hy : ks.y = 0#8 := by rw [← e]
    intro h
    have h1 := h.1
    rw [hx, hy] at h1
    exact absurd h1 (by decide)
  induction n with
  | zero => exact h0
  | succ n ih =>
    rw [Function.iterate_succ_apply']
    exact fun h => ih (finney_of_step _ h)

/-- C89: the key stream is periodic from its first byte on: after some number of bytes it is back in its first state. -/
theorem C89_rc4_periodic (key : List U8) (ks : Rc4.KeyStream) (_hk : Rc4.new key = .ok ks) :
    ∃ p, 0 < p ∧ rc4Step^[p] ks = ks := by
  have hfin : Finite Rc4.KeyStream := by
    have : Function.Injective (fun s : Rc4.KeyStream => (fun i : Fin 256 => (s.state[i]).toFin, s.x.toFin, s.y.toFin)) := by
      rintro ⟨S, x, y⟩ ⟨S', x', y'⟩ h
      simp only [Prod.mk.injEq] at h
      obtain ⟨h1, h2, h3⟩ := h
      have e2 : x = x' := BitVec.toFin_inj.1 h2
      have e3 : y = y' := BitVec.toFin_inj.1 h3
      have e1 : S = S' := by
        apply Vector.ext
        intro i hi
        exact BitVec.toFin_inj.1 (congrFun h1 ⟨i, hi⟩)
      rw [e1, e2, e3]
    exact Finite.of_injective _ this
  obtain ⟨p, hp, h⟩ := C89_rc4_step_injective.mem_periodicPts ks
  exact ⟨p, hp, h⟩

/-- A Finney state exists, and its successor is one. -/
example : Finney ⟨Vector.replicate 256 1#8, 3#8, 4#8⟩ ∧ Finney (rc4Step ⟨Vector.replicate 256 1#8, 3#8, 4#8⟩) := by
  simp only [Finney]
  set_option maxRecDepth 4000 in decide +kernel

/-- C85 and C87 applied. -/
example : ∃ bs os : List (Vector U8 4), bs.flatMap Vector.toList = [1, 2, 4, 3, 7, 3, 3, 3] ∧
    List.Forall₂ (fun b o => o = b.reverse) bs os ∧
    blockEncrypt (ecb 4) (revCipher 4) () [1, 2, 4, 3, 7] = ⟨os.flatMap Vector.toList, .ok ()⟩ :=
  C85_ecb (by decide) (revCipher 4) (fun b o => o = b.reverse) (fun b => ⟨b.reverse, rfl, rfl⟩) [1, 2, 4, 3, 7]
example : xorBytes (streamEncrypt listKeys [1, 2, 3] [7, 7]).yielded (streamEncrypt listKeys [1, 2, 3] [9, 8]).yielded = [14, 15] :=
  (C87_key_reuse listKeys [1, 2, 3] [7, 7] [9, 8] rfl (by decide +kernel)).2

end Verif.Props
