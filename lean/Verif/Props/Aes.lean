import Verif.Proof.AesSpec
import Verif.Props.Block

/-! # Properties C20–C24, C69, C70: AES -/

namespace Verif.Props
open Verif Model
open Verif.Spec.Aes (toPoly m ofBlock KeyExpansion IsSbox ginv gmul Affine)

/-- An `Aes` value obtained from one of the three constructors. -/
inductive BuiltAes : Aes.Aes → Prop
  | k128 (key : Vector U8 16) (c) : Aes.with128 key = .ok c → BuiltAes c
  | k192 (key : Vector U8 24) (c) : Aes.with192 key = .ok c → BuiltAes c
  | k256 (key : Vector U8 32) (c) : Aes.with256 key = .ok c → BuiltAes c

theorem with128_spec (key : Vector U8 16) : ∃ c w, Aes.with128 key = .ok c ∧ c.rounds = 10 ∧
    c.keys.length = 11 ∧ KeyExpansion Aes.sub 4 10 key.toList w ∧
    (∀ k (h : k < c.keys.length), ∀ r c' : Fin 4, (c.keys[k])[r.val + 4 * c'.val] = w (4 * k + c'.val) r) ∧
    ∀ b, ∃ e, Aes.encrypt c b = .ok e ∧ ofBlock e = Spec.Aes.cipher Aes.sub w 10 (ofBlock b) := by
  obtain ⟨keys, w, h1, h2, h3, h4, h5⟩ := Aes.built (N := 4) rfl (by decide) key 10 (by decide) (by intro i hi; omega)
  exact ⟨⟨keys, 10⟩, w, by simp only [Aes.with128, h1, bind, Except.bind], rfl, h2, h3, h4, h5⟩

theorem with192_spec (key : Vector U8 24) : ∃ c w, Aes.with192 key = .ok c ∧ c.rounds = 12 ∧
    c.keys.length = 13 ∧ KeyExpansion Aes.sub 6 12 key.toList w ∧
    (∀ k (h : k < c.keys.length), ∀ r c' : Fin 4, (c.keys[k])[r.val + 4 * c'.val] = w (4 * k + c'.val) r) ∧
    ∀ b, ∃ e, Aes.encrypt c b = .ok e ∧ ofBlock e = Spec.Aes.cipher Aes.sub w 12 (ofBlock b) := by
  obtain ⟨keys, w, h1, h2, h3, h4, h5⟩ := Aes.built (N := 6) rfl (by decide) key 12 (by decide) (by intro i hi; omega)
  exact ⟨⟨keys, 12⟩, w, by simp only [Aes.with192, h1, bind, Except.bind], rfl, h2, h3, h4, h5⟩

theorem with256_spec (key : Vector U8 32) : ∃ c w, Aes.with256 key = .ok c ∧ c.rounds = 14 ∧
    c.keys.length = 15 ∧ KeyExpansion Aes.sub 8 14 key.toList w ∧
    (∀ k (h : k < c.keys.length), ∀ r c' : Fin 4, (c.keys[k])[r.val + 4 * c'.val] = w (4 * k + c'.val) r) ∧
    ∀ b, ∃ e, Aes.encrypt c b = .ok e ∧ ofBlock e = Spec.Aes.cipher Aes.sub w 14 (ofBlock b) := by
  obtain ⟨keys, w, h1, h2, h3, h4, h5⟩ := Aes.built (N := 8) rfl (by decide) key 14 (by decide) (by intro i hi; omega)
  exact ⟨⟨keys, 14⟩, w, by simp only [Aes.with256, h1, bind, Except.bind], rfl, h2, h3, h4, h5⟩

theorem BuiltAes.length {c : Aes.Aes} (h : BuiltAes c) : c.keys.length = c.rounds + 1 := by
  cases h with
  | k128 key _ h =>
    obtain ⟨c', w, h1, h2, h3, _⟩ := with128_spec key
    rw [h] at h1; injection h1 with h1; subst h1; omega
  | k192 key _ h =>
    obtain ⟨c', w, h1, h2, h3, _⟩ := with192_spec key
    rw [h] at h1; injection h1 with h1; subst h1; omega
  | k256 key _ h =>
    obtain ⟨c', w, h1, h2, h3, _⟩ := with256_spec key
    rw [h] at h1; injection h1 with h1; subst h1; omega

/-! ## C20 -/

/-- C20: all three constructors return a cipher for every key. -/
theorem C20_aes_total (k1 : Vector U8 16) (k2 : Vector U8 24) (k3 : Vector U8 32) :
    (∃ c, Aes.with128 k1 = .ok c) ∧ (∃ c, Aes.with192 k2 = .ok c) ∧ (∃ c, Aes.with256 k3 = .ok c) := by
  obtain ⟨c1, _, h1, _⟩ := with128_spec k1
  obtain ⟨c2, _, h2, _⟩ := with192_spec k2
  obtain ⟨c3, _, h3, _⟩ := with256_spec k3
  exact ⟨⟨c1, h1⟩, ⟨c2, h2⟩, ⟨c3, h3⟩⟩

/-- C20: for every cipher the constructors return and every block, encryption and decryption return
normally and undo each other, in both orders. -/
theorem C20_aes_inverse {c : Aes.Aes} (hc : BuiltAes c) (b : Vector U8 16) :
    (∃ e, Aes.encrypt c b = .ok e ∧ Aes.decrypt c e = .ok b) ∧
    (∃ d, Aes.decrypt c b = .ok d ∧ Aes.encrypt c d = .ok b) := by
  have h := hc.length
  refine ⟨⟨_, Aes.encrypt_eq c h b, ?_⟩, ⟨_, Aes.decrypt_eq c h b, ?_⟩⟩
  · rw [Aes.decrypt_eq c h, Aes.decPure_encPure]
  · rw [Aes.encrypt_eq c h, Aes.encPure_decPure]

/-- C20 with C01: every message encrypted block-wise under AES decrypts to itself. -/
theorem C20_aes_ecb_roundtrip {c : Aes.Aes} (hc : BuiltAes c) (plaintext : List U8) :
    (blockEncrypt (ecb 16) (Aes.cipher c) () plaintext).result = .ok () ∧
    blockDecrypt (ecb 16) (Aes.cipher c) () (blockEncrypt (ecb 16) (Aes.cipher c) () plaintext).emitted
      = ⟨plaintext, .ok ()⟩ :=
  C01_ecb_roundtrip (by decide) (by decide) (Aes.cipher c) (fun b => (C20_aes_inverse hc b).1) plaintext

/-- The key 00 01 02 ... of FIPS 197 appendix C. -/
def seqKey (n : Nat) : Vector U8 n := Vector.ofFn fun i => BitVec.ofNat 8 i.val
/-- The plaintext 00 11 22 ... ff of FIPS 197 appendix C. -/
def fipsPlain : Vector U8 16 := Vector.ofFn fun i => BitVec.ofNat 8 (i.val * 0x11)

example : ∃ c e, BuiltAes c ∧ Aes.encrypt c fipsPlain = .ok e ∧ Aes.decrypt c e = .ok fipsPlain ∧
    blockDecrypt (ecb 16) (Aes.cipher c) () (blockEncrypt (ecb 16) (Aes.cipher c) () [1#8, 2#8, 3#8]).emitted
      = ⟨[1#8, 2#8, 3#8], .ok ()⟩ := by
  obtain ⟨c, _, h, _⟩ := with192_spec (seqKey 24)
  have hc : BuiltAes c := .k192 _ c h
  obtain ⟨e, h1, h2⟩ := (C20_aes_inverse hc fipsPlain).1
  exact ⟨c, e, hc, h1, h2, (C20_aes_ecb_roundtrip hc _).2⟩

/-! ## C21 -/

/-- C21: AES with a 128-bit key is the FIPS-197 cipher with 10 rounds; `Aes.sub` is the FIPS-197 S-box
(`C22_aes_sbox`) and the expanded key is the only one the standard allows (`C23_schedule_unique`). -/
theorem C21_aes128_is_fips197 (key : Vector U8 16) : ∃ c S w, Aes.with128 key = .ok c ∧ IsSbox S ∧
    KeyExpansion S 4 10 key.toList w ∧
    ∀ b, ∃ e, Aes.encrypt c b = .ok e ∧ ofBlock e = Spec.Aes.cipher S w 10 (ofBlock b) := by
  obtain ⟨c, w, h1, _, _, h4, _, h6⟩ := with128_spec key
  exact ⟨c, Aes.sub, w, h1, Aes.isSbox_sub, h4, h6⟩

/-- C21 for 192-bit keys: 12 rounds. -/
theorem C21_aes192_is_fips197 (key : Vector U8 24) : ∃ c S w, Aes.with192 key = .ok c ∧ IsSbox S ∧
    KeyExpansion S 6 12 key.toList w ∧
    ∀ b, ∃ e, Aes.encrypt c b = .ok e ∧ ofBlock e = Spec.Aes.cipher S w 12 (ofBlock b) := by
  obtain ⟨c, w, h1, _, _, h4, _, h6⟩ := with192_spec key
  exact ⟨c, Aes.sub, w, h1, Aes.isSbox_sub, h4, h6⟩

/-- C21 for 256-bit keys: 14 rounds. -/
theorem C21_aes256_is_fips197 (key : Vector U8 32) : ∃ c S w, Aes.with256 key = .ok c ∧ IsSbox S ∧
    KeyExpansion S 8 14 key.toList w ∧
    ∀ b, ∃ e, Aes.encrypt c b = .ok e ∧ ofBlock e = Spec.Aes.cipher S w 14 (ofBlock b) := by
  obtain ⟨c, w, h1, _, _, h4, _, h6⟩ := with256_spec key
  exact ⟨c, Aes.sub, w, h1, Aes.isSbox_sub, h4, h6⟩

/-- C21: a ciphertext block is determined by the state (`ofBlock` loses nothing). -/
theorem C21_state_faithful (a b : Vector U8 16) : ofBlock a = ofBlock b ↔ a = b :=
  ⟨fun h => Aes.ofBlock_injective h, fun h => h ▸ rfl⟩

/-! ## C22 -/

/-- C22: the computed S-box exists (the compile-time computation terminates), is the FIPS-197 S-box,
and the backward table inverts it on both sides. -/
theorem C22_aes_sbox : Aes.calculateSbox = .ok Aes.SBOX ∧ IsSbox Aes.sub ∧
    (∀ b, Aes.unsub (Aes.sub b) = b) ∧ (∀ b, Aes.sub (Aes.unsub b) = b) :=
  ⟨Aes.calculateSbox_ok, Aes.isSbox_sub, Aes.unsub_sub, Aes.sub_unsub⟩

/-- C22: the S-box is a bijection. -/
theorem C22_aes_sbox_bijective : Function.Bijective Aes.sub :=
  ⟨fun a b h => by rw [← Aes.unsub_sub a, h, Aes.unsub_sub], fun b => ⟨Aes.unsub b, Aes.sub_unsub b⟩⟩

/-- C22: the specification fixes the S-box. -/
theorem C22_sbox_unique {S T : U8 → U8} (hS : IsSbox S) (hT : IsSbox T) : S = T := by
  funext b
  apply BitVec.eq_of_getLsbD_eq
  intro i hi
  rw [hS b i hi, hT b i hi]

example : Aes.sub 0x00#8 = 0x63#8 ∧ Aes.sub 0x53#8 = 0xed#8 := by simp only [Aes.sub_eq]; decide +kernel

/-! ## C23 -/

/-- C23: the key schedules have 11, 13 and 15 round keys, and their bytes satisfy the FIPS-197 recurrence. -/
theorem C23_aes_schedule (k1 : Vector U8 16) (k2 : Vector U8 24) (k3 : Vector U8 32) :
    (∃ c w, Aes.with128 k1 = .ok c ∧ c.keys.length = 11 ∧ KeyExpansion Aes.sub 4 10 k1.toList w ∧
      ∀ k (h : k < c.keys.length), ∀ r j : Fin 4, (c.keys[k])[r.val + 4 * j.val] = w (4 * k + j.val) r) ∧
    (∃ c w, Aes.with192 k2 = .ok c ∧ c.keys.length = 13 ∧ KeyExpansion Aes.sub 6 12 k2.toList w ∧
      ∀ k (h : k < c.keys.length), ∀ r j : Fin 4, (c.keys[k])[r.val + 4 * j.val] = w (4 * k + j.val) r) ∧
    (∃ c w, Aes.with256 k3 = .ok c ∧ c.keys.length = 15 ∧ KeyExpansion Aes.sub 8 14 k3.toList w ∧
      ∀ k (h : k < c.keys.length), ∀ r j : Fin 4, (c.keys[k])[r.val + 4 * j.val] = w (4 * k + j.val) r) := by
  obtain ⟨c1, w1, a1, _, a3, a4, a5, _⟩ := with128_spec k1
  obtain ⟨c2, w2, b1, _, b3, b4, b5, _⟩ := with192_spec k2
  obtain ⟨c3, w3, d1, _, d3, d4, d5, _⟩ := with256_spec k3
  exact ⟨⟨c1, w1, a1, a3, a4, a5⟩, ⟨c2, w2, b1, b3, b4, b5⟩, ⟨c3, w3, d1, d3, d4, d5⟩⟩

/-- C23: the recurrence determines the schedule. -/
theorem C23_schedule_unique {S : U8 → U8} {Nk Nr : Nat} (hNk : 0 < Nk) {key : List U8}
    {w w' : Nat → Spec.Aes.Word} (h : KeyExpansion S Nk Nr key w) (h' : KeyExpansion S Nk Nr key w') :
    ∀ i < 4 * (Nr + 1), w i = w' i := by
  intro i
  induction i using Nat.strong_induction_on with
  | _ i ih =>
    intro hi
    by_cases h1 : i < Nk
    · funext j
      have := (h.init i h1 j).trans (h'.init i h1 j).symm
      injection this
    · have e1 := ih (i - Nk) (by omega) (by omega)
      have e2 := ih (i - 1) (by omega) (by omega)
      by_cases h2 : i % Nk = 0
      · rw [h.first i (by omega) hi h2, h'.first i (by omega) hi h2, e1, e2]
      · by_cases h3 : Nk > 6 ∧ i % Nk = 4
        · rw [h.mid i (by omega) hi h2 h3.1 h3.2, h'.mid i (by omega) hi h2 h3.1 h3.2, e1, e2]
        · rw [h.rest i (by omega) hi h2 h3, h'.rest i (by omega) hi h2 h3, e1, e2]

/-- The expanded key of a key of 16 bytes exists and is the only one. -/
example : ∃ w, KeyExpansion Aes.sub 4 10 (seqKey 16).toList w ∧
    ∀ w', KeyExpansion Aes.sub 4 10 (seqKey 16).toList w' → ∀ i < 4 * (10 + 1), w i = w' i := by
  obtain ⟨_, w, _, _, h, _⟩ := (C23_aes_schedule (seqKey 16) (seqKey 24) (seqKey 32)).1
  exact ⟨w, h, fun w' h' => C23_schedule_unique (by decide) h h'⟩

theorem key_of_words {Nk : Nat} {key key' : Vector U8 (4 * Nk)} {w w' : Nat → Spec.Aes.Word} {S : U8 → U8} {Nr : Nat}
    (h : KeyExpansion S Nk Nr key.toList w) (h' : KeyExpansion S Nk Nr key'.toList w')
    (he : ∀ i < Nk, w i = w' i) : key = key' := by
  apply Vector.ext
  intro i hi
  have h1 := h.init (i / 4) (by omega) ⟨i % 4, by omega⟩
  have h2 := h'.init (i / 4) (by omega) ⟨i % 4, by omega⟩
  have e : 4 * (i / 4) + i % 4 = i := by omega
  simp only [e, he (i / 4) (by omega)] at h1 h2
  rw [h1] at h2
  rw [List.getElem?_eq_getElem (by simpa using hi), List.getElem?_eq_getElem (by simpa using hi)] at h2
  simpa using h2

/-- Two schedules with the same bytes have the same words. -/
theorem words_of_keys {c : Aes.Aes} {w w' : Nat → Spec.Aes.Word}
    (h : ∀ k (h : k < c.keys.length), ∀ r j : Fin 4, (c.keys[k])[r.val + 4 * j.val] = w (4 * k + j.val) r)
    (h' : ∀ k (h : k < c.keys.length), ∀ r j : Fin 4, (c.keys[k])[r.val + 4 * j.val] = w' (4 * k + j.val) r)
    (i : Nat) (hi : i < 4 * c.keys.length) : w i = w' i := by
  funext r
  have h1 := h (i / 4) (by omega) r ⟨i % 4, by omega⟩
  have h2 := h' (i / 4) (by omega) r ⟨i % 4, by omega⟩
  have e : 4 * (i / 4) + i % 4 = i := by omega
  simp only [e] at h1 h2
  rw [← h1, ← h2]

/-- C23: different keys give different ciphers (as values). -/
theorem C23_aes_key_injective :
    (∀ k k', Aes.with128 k = Aes.with128 k' → k = k') ∧ (∀ k k', Aes.with192 k = Aes.with192 k' → k = k') ∧
    (∀ k k', Aes.with256 k = Aes.with256 k' → k = k') := by
  refine ⟨fun k k' h => ?_, fun k k' h => ?_, fun k k' h => ?_⟩
  · obtain ⟨c, w, h1, _, h3, h4, h5, _⟩ := with128_spec k
    obtain ⟨c', w', h1', _, h3', h4', h5', _⟩ := with128_spec k'
    have e : c' = c := by rw [h, h1'] at h1; injection h1
    subst e
    exact key_of_words (Nk := 4) h4 h4' fun i hi => words_of_keys h5 h5' i (by omega)
  · obtain ⟨c, w, h1, _, h3, h4, h5, _⟩ := with192_spec k
    obtain ⟨c', w', h1', _, h3', h4', h5', _⟩ := with192_spec k'
    have e : c' = c := by rw [h, h1'] at h1; injection h1
    subst e
    exact key_of_words (Nk := 6) h4 h4' fun i hi => words_of_keys h5 h5' i (by omega)
  · obtain ⟨c, w, h1, _, h3, h4, h5, _⟩ := with256_spec k
    obtain ⟨c', w', h1', _, h3', h4', h5', _⟩ := with256_spec k'
    have e : c' = c := by rw [h, h1'] at h1; injection h1
    subst e
    exact key_of_words (Nk := 8) h4 h4' fun i hi => words_of_keys h5 h5' i (by omega)

example : Aes.with128 (seqKey 16) ≠ Aes.with128 (Vector.replicate 16 0#8) :=
  fun h => absurd (C23_aes_key_injective.1 _ _ h) (by decide)

/-! ## C24 -/

/-- C24: the byte product is the product of polynomials over GF(2) modulo `x^8+x^4+x^3+x+1`, and the
polynomial determines the byte. -/
theorem C24_mul_is_polynomial_product (a b : U8) :
    toPoly (Aes.mul a b) = (toPoly a * toPoly b) %ₘ m ∧ Function.Injective toPoly :=
  ⟨Aes.toPoly_mul a b, Aes.toPoly_injective⟩

/-- C24: the ring laws. -/
theorem C24_ring_laws (a b c : U8) : Aes.mul a b = Aes.mul b a ∧
    Aes.mul (Aes.mul a b) c = Aes.mul a (Aes.mul b c) ∧
    Aes.mul a (b ^^^ c) = Aes.mul a b ^^^ Aes.mul a c ∧ Aes.mul a 1#8 = a :=
  ⟨Aes.mul_comm' a b, Aes.mul_assoc' a b c, Aes.mul_xor a b c, Aes.mul_one' a⟩

/-- C24: `mul2`, `mul3` and `div3`. -/
theorem C24_mul2_mul3_div3 (a : U8) : Aes.mul2 a = Aes.mul 2#8 a ∧ Aes.mul3 a = Aes.mul 3#8 a ∧
    Aes.div3 (Aes.mul3 a) = a ∧ Aes.mul3 (Aes.div3 a) = a :=
  ⟨by rw [Aes.mul2_eq, Aes.mul_eq_gmul], by rw [Aes.mul3_eq, Aes.mul_eq_gmul], Aes.div3_mul3 a, Aes.mul3_div3 a⟩

/-- C24: every non-zero byte has exactly one inverse. -/
theorem C24_inverse (a : U8) (ha : a ≠ 0#8) : ∃ b, Aes.mul a b = 1#8 ∧ ∀ c, Aes.mul a c = 1#8 → c = b := by
  refine ⟨Aes.invOf a, Aes.mul_invOf a ha, fun c hc => ?_⟩
  calc c = Aes.mul (Aes.mul a (Aes.invOf a)) c := by rw [Aes.mul_invOf a ha, Aes.mul_comm', Aes.mul_one']
    _ = Aes.mul (Aes.invOf a) (Aes.mul a c) := by rw [Aes.mul_comm' a, Aes.mul_assoc']
    _ = Aes.invOf a := by rw [hc, Aes.mul_one']

/-- C24: the field iterator ends, lists every non-zero byte exactly once and zero never, and lists next to
every byte its inverse. -/
theorem C24_iterator : ∃ l, Aes.FieldIter.collect 300 .start = some l ∧ (l.map Prod.fst).Nodup ∧
    (∀ b, b ∈ l.map Prod.fst ↔ b ≠ 0#8) ∧ ∀ x ∈ l, Aes.mul x.1 x.2 = 1#8 := by
  obtain ⟨h1, h2, h3, h4⟩ := Aes.fieldPairs_perm
  exact ⟨_, Aes.collect_eq, h1, fun b => ⟨fun hb e => h3 (e ▸ hb), h2 b⟩, h4⟩

example : (0x53#8 : U8) ≠ 0#8 ∧ Aes.mul 0x57#8 0x83#8 = 0xc1#8 := by decide +kernel

/-- FIPS 197 appendix C.1, computed by the model. -/
example : (do Aes.encrypt (← Aes.with128 (seqKey 16)) fipsPlain) = .ok #v[0x69, 0xc4, 0xe0, 0xd8, 0x6a, 0x7b,
    0x04, 0x30, 0xd8, 0xcd, 0xb7, 0x80, 0x70, 0xb4, 0xc5, 0x5a] := by decide +kernel

/-! ## C69 -/

/-- Byte `j` (0 is the most significant) of a 64-bit word. -/
def byteOf (v : U64) (j : Nat) : U8 := (v >>> (8 * (7 - j))).setWidth 8

theorem natToBE8_getD (v : U64) (j : Nat) (hj : j < 8) : (natToBE 8 v.toNat).getD j 0#8 = byteOf v j := by
  have : ∀ n : Nat, BitVec.ofNat 8 (v.toNat / 2 ^ n) = (v >>> n).setWidth 8 := by
    intro n
    apply BitVec.eq_of_toNat_eq
    simp [Nat.shiftRight_eq_div_pow]
  match j, hj with
  | 0, _ => exact (by simp [natToBE, natToLE, Nat.div_div_eq_div_mul] : _ = BitVec.ofNat 8 (v.toNat / 2 ^ 56)).trans (this 56)
  | 1, _ => exact (by simp [natToBE, natToLE, Nat.div_div_eq_div_mul] : _ = BitVec.ofNat 8 (v.toNat / 2 ^ 48)).trans (this 48)
  | 2, _ => exact (by simp [natToBE, natToLE, Nat.div_div_eq_div_mul] : _ = BitVec.ofNat 8 (v.toNat / 2 ^ 40)).trans (this 40)
  | 3, _ => exact (by simp [natToBE, natToLE, Nat.div_div_eq_div_mul] : _ = BitVec.ofNat 8 (v.toNat / 2 ^ 32)).trans (this 32)
  | 4, _ => exact (by simp [natToBE, natToLE, Nat.div_div_eq_div_mul] : _ = BitVec.ofNat 8 (v.toNat / 2 ^ 24)).trans (this 24)
  | 5, _ => exact (by simp [natToBE, natToLE, Nat.div_div_eq_div_mul] : _ = BitVec.ofNat 8 (v.toNat / 2 ^ 16)).trans (this 16)
  | 6, _ => exact (by simp [natToBE, natToLE, Nat.div_div_eq_div_mul] : _ = BitVec.ofNat 8 (v.toNat / 2 ^ 8)).trans (this 8)
  | 7, _ => exact (by simp [natToBE, natToLE] : _ = BitVec.ofNat 8 (v.toNat / 2 ^ 0)).trans (this 0)
  | n + 8, h => omega

theorem copyLoop_spec {N : Nat} (vs : List U64) : ∀ (i : Nat) (key : Vector U8 N), 8 * (i + vs.length) ≤ N →
    ∃ k, Aes.copyLoop i vs key = .ok k ∧ ∀ j (hj : j < N),
      k[j] = if 8 * i ≤ j ∧ j < 8 * (i + vs.length) then byteOf (vs.getD (j / 8 - i) 0#64) (j % 8) else key[j] := by
  induction vs with
  | nil =>
    intro i key h
    refine ⟨key, rfl, fun j hj => ?_⟩
    rw [if_neg (by simp)]
  | cons v vs ih =>
    intro i key h
    rw [List.length_cons] at h
    have h1 : Aes.copyU64 key i v = .ok (Vector.ofFn fun j => if 8 * i ≤ j.val ∧ j.val < 8 * i + 8 then
      (natToBE 8 v.toNat).getD (j.val - 8 * i) 0#8 else key[j]) := if_pos (by omega)
    obtain ⟨k, hk, hk'⟩ := ih (i + 1) _ (by omega)
    refine ⟨k, by simp only [Aes.copyLoop, h1, bind, Except.bind]; exact hk, fun j hj => ?_⟩
    rw [hk' j hj, List.length_cons]
    by_cases c1 : 8 * (i + 1) ≤ j ∧ j < 8 * (i + 1 + vs.length)
    · rw [if_pos c1, if_pos (by omega)]
      have : j / 8 - i = (j / 8 - (i + 1)) + 1 := by omega
      rw [this, List.getD_cons_succ]
    · rw [if_neg c1, Vector.getElem_ofFn]
      by_cases c2 : 8 * i ≤ j ∧ j < 8 * i + 8
      · simp only [if_pos c2]
        rw [if_pos (by omega), natToBE8_getD v _ (by omega)]
        have e1 : j - 8 * i = j % 8 := by omega
        have e2 : j / 8 - i = 0 := by omega
        rw [e1, e2, List.getD_cons_zero]
      · simp only [if_neg c2]
        rw [if_neg (by omega)]
        rfl

theorem copyU64s_spec {N : Nat} (vs : List U64) (h : 8 * vs.length = N) :
    ∃ k, Aes.copyU64s N vs = .ok k ∧ ∀ j (hj : j < N), k[j] = byteOf (vs.getD (j / 8) 0#64) (j % 8) := by
  obtain ⟨k, h1, h2⟩ := copyLoop_spec (N := N) vs 0 (Vector.replicate N 0#8) (by omega)
  refine ⟨k, h1, fun j hj => ?_⟩
  rw [h2 j hj, if_pos (by omega), Nat.sub_zero]

/-- C69: a key given as 64-bit words is the key whose bytes are the words' bytes, most significant first. -/
theorem C69_key_from_words (v2 : Vector U64 2) (v3 : Vector U64 3) (v4 : Vector U64 4) :
    (∃ k : Vector U8 16, Aes.fromU64x2 v2 = Aes.with128 k ∧
      ∀ (i : Fin 2) (j : Fin 8), k[8 * i.val + j.val] = byteOf v2[i] j) ∧
    (∃ k : Vector U8 24, Aes.fromU64x3 v3 = Aes.with192 k ∧
      ∀ (i : Fin 3) (j : Fin 8), k[8 * i.val + j.val] = byteOf v3[i] j) ∧
    (∃ k : Vector U8 32, Aes.fromU64x4 v4 = Aes.with256 k ∧
      ∀ (i : Fin 4) (j : Fin 8), k[8 * i.val + j.val] = byteOf v4[i] j) := by
  refine ⟨?_, ?_, ?_⟩
  · obtain ⟨k, h1, h2⟩ := copyU64s_spec (N := 16) v2.toList (by simp)
    refine ⟨k, by simp only [Aes.fromU64x2, h1, bind, Except.bind], fun i j => ?_⟩
    have e1 : (8 * i.val + j.val) / 8 = i.val := by omega
    have e2 : (8 * i.val + j.val) % 8 = j.val := by omega
    rw [h2, e1, e2, List.getD_eq_getElem?_getD, List.getElem?_eq_getElem (by rw [Vector.length_toList]; omega)]
    simp
  · obtain ⟨k, h1, h2⟩ := copyU64s_spec (N := 24) v3.toList (by simp)
    refine ⟨k, by simp only [Aes.fromU64x3, h1, bind, Except.bind], fun i j => ?_⟩
    have e1 : (8 * i.val + j.val) / 8 = i.val := by omega
    have e2 : (8 * i.val + j.val) % 8 = j.val := by omega
    rw [h2, e1, e2, List.getD_eq_getElem?_getD, List.getElem?_eq_getElem (by rw [Vector.length_toList]; omega)]
    simp
  · obtain ⟨k, h1, h2⟩ := copyU64s_spec (N := 32) v4.toList (by simp)
    refine ⟨k, by simp only [Aes.fromU64x4, h1, bind, Except.bind], fun i j => ?_⟩
    have e1 : (8 * i.val + j.val) / 8 = i.val := by omega
    have e2 : (8 * i.val + j.val) % 8 = j.val := by omega
    rw [h2, e1, e2, List.getD_eq_getElem?_getD, List.getElem?_eq_getElem (by rw [Vector.length_toList]; omega)]
    simp

example : byteOf 0x1234567890abcdef#64 0 = 0x12#8 ∧ byteOf 0x1234567890abcdef#64 7 = 0xef#8 := by decide

/-! ## C70 -/

theorem wxor_cancel_right {a b c : Spec.Aes.Word} (h : Spec.Aes.wxor a c = Spec.Aes.wxor b c) : a = b := by
  funext i
  have := congrFun h i
  simp only [Spec.Aes.wxor] at this
  calc a i = a i ^^^ c i ^^^ c i := by rw [BitVec.xor_assoc, BitVec.xor_self, BitVec.xor_zero]
    _ = b i ^^^ c i ^^^ c i := by rw [this]
    _ = b i := by rw [BitVec.xor_assoc, BitVec.xor_self, BitVec.xor_zero]

/-- Any `Nk` consecutive words determine the earlier words. -/
theorem schedule_backwards {S : U8 → U8} {Nk Nr : Nat} (hNk : 2 ≤ Nk) {key key' : List U8}
    {w w' : Nat → Spec.Aes.Word} (h : KeyExpansion S Nk Nr key w) (h' : KeyExpansion S Nk Nr key' w') :
    ∀ i, i + Nk ≤ 4 * (Nr + 1) → (∀ t, i ≤ t → t < i + Nk → w t = w' t) → ∀ t, t < i + Nk → w t = w' t := by
  intro i
  induction i with
  | zero => intro _ he t ht; exact he t (by omega) ht
  | succ i ih =>
    intro hi he
    have hw : w i = w' i := by
      have e0 := he (i + Nk) (by omega) (by omega)
      have e1 := he (i + Nk - 1) (by omega) (by omega)
      have ei : i + Nk - Nk = i := by omega
      by_cases h2 : (i + Nk) % Nk = 0
      · rw [h.first _ (by omega) (by omega) h2, h'.first _ (by omega) (by omega) h2, e1, ei] at e0
        exact wxor_cancel_right e0
      · by_cases h3 : Nk > 6 ∧ (i + Nk) % Nk = 4
        · rw [h.mid _ (by omega) (by omega) h2 h3.1 h3.2, h'.mid _ (by omega) (by omega) h2 h3.1 h3.2, e1, ei] at e0
          exact wxor_cancel_right e0
        · rw [h.rest _ (by omega) (by omega) h2 h3, h'.rest _ (by omega) (by omega) h2 h3, e1, ei] at e0
          exact wxor_cancel_right e0
    intro t ht
    by_cases hlast : t = i + Nk
    · exact he t (by omega) (by omega)
    · refine ih (by omega) (fun t h1 h2 => ?_) t (by omega)
      by_cases e : t = i
      · rw [e]; exact hw
      · exact he t (by omega) (by omega)

/-- C70: with a 128-bit key every single round key determines the key. -/
theorem C70_aes128_round_key_determines_key (k k' : Vector U8 16) (c c' : Aes.Aes) (hc : Aes.with128 k = .ok c)
    (hc' : Aes.with128 k' = .ok c') (i : Nat) (hi : i < 11) (he : c.keys[i]? = c'.keys[i]?) : k = k' := by
  obtain ⟨d, w, h1, _, h3, h4, h5, _⟩ := with128_spec k
  obtain ⟨d', w', h1', _, h3', h4', h5', _⟩ := with128_spec k'
  rw [hc] at h1; injection h1 with h1; subst h1
  rw [hc'] at h1'; injection h1' with h1'; subst h1'
  refine key_of_words (Nk := 4) h4 h4' fun t ht =>
    schedule_backwards (by decide) h4 h4' (4 * i) (by omega) (fun t h1 h2 => ?_) t (by omega)
  rw [List.getElem?_eq_getElem (by omega), List.getElem?_eq_getElem (by omega)] at he
  injection he with he
  funext r
  have e1 := h5 i (by omega) r ⟨t - 4 * i, by omega⟩
  have e2 := h5' i (by omega) r ⟨t - 4 * i, by omega⟩
  have e : 4 * i + (t - 4 * i) = t := by omega
  simp only [e, he] at e1 e2
  rw [← e1, ← e2]

/-- C70: with a 192-bit key every two consecutive round keys determine the key. -/
theorem C70_aes192_two_round_keys_determine_key (k k' : Vector U8 24) (c c' : Aes.Aes) (hc : Aes.with192 k = .ok c)
    (hc' : Aes.with192 k' = .ok c') (i : Nat) (hi : i < 12) (he : c.keys[i]? = c'.keys[i]?)
    (he' : c.keys[i + 1]? = c'.keys[i + 1]?) : k = k' := by
  obtain ⟨d, w, h1, _, h3, h4, h5, _⟩ := with192_spec k
  obtain ⟨d', w', h1', _, h3', h4', h5', _⟩ := with192_spec k'
  rw [hc] at h1; injection h1 with h1; subst h1
  rw [hc'] at h1'; injection h1' with h1'; subst h1'
  refine key_of_words (Nk := 6) h4 h4' fun t ht =>
    schedule_backwards (by decide) h4 h4' (4 * i) (by omega) (fun t h1 h2 => ?_) t (by omega)
  rw [List.getElem?_eq_getElem (by omega), List.getElem?_eq_getElem (by omega)] at he he'
  injection he with he
  injection he' with he'
  funext r
  by_cases hlt : t < 4 * i + 4
  · have e1 := h5 i (by omega) r ⟨t - 4 * i, by omega⟩
    have e2 := h5' i (by omega) r ⟨t - 4 * i, by omega⟩
    have e : 4 * i + (t - 4 * i) = t := by omega
    simp only [e, he] at e1 e2
    rw [← e1, ← e2]
  · have e1 := h5 (i + 1) (by omega) r ⟨t - 4 * (i + 1), by omega⟩
    have e2 := h5' (i + 1) (by omega) r ⟨t - 4 * (i + 1), by omega⟩
    have e : 4 * (i + 1) + (t - 4 * (i + 1)) = t := by omega
    simp only [e, he'] at e1 e2
    rw [← e1, ← e2]

/-- C70: with a 256-bit key every two consecutive round keys determine the key. -/
theorem C70_aes256_two_round_keys_determine_key (k k' : Vector U8 32) (c c' : Aes.Aes) (hc : Aes.with256 k = .ok c)
    (hc' : Aes.with256 k' = .ok c') (i : Nat) (hi : i < 14) (he : c.keys[i]? = c'.keys[i]?)
    (he' : c.keys[i + 1]? = c'.keys[i + 1]?) : k = k' := by
  obtain ⟨d, w, h1, _, h3, h4, h5, _⟩ := with256_spec k
  obtain ⟨d', w', h1', _, h3', h4', h5', _⟩ := with256_spec k'
  rw [hc] at h1; injection h1 with h1; subst h1
  rw [hc'] at h1'; injection h1' with h1'; subst h1'
  refine key_of_words (Nk := 8) h4 h4' fun t ht =>
    schedule_backwards (by decide) h4 h4' (4 * i) (by omega) (fun t h1 h2 => ?_) t (by omega)
  rw [List.getElem?_eq_getElem (by omega), List.getElem?_eq_getElem (by omega)] at he he'
  injection he with he
  injection he' with he'
  funext r
  by_cases hlt : t < 4 * i + 4
  · have e1 := h5 i (by omega) r ⟨t - 4 * i, by omega⟩
    have e2 := h5' i (by omega) r ⟨t - 4 * i, by omega⟩
    have e : 4 * i + (t - 4 * i) = t := by omega
    simp only [e, he] at e1 e2
    rw [← e1, ← e2]
  · have e1 := h5 (i + 1) (by omega) r ⟨t - 4 * (i + 1), by omega⟩
    have e2 := h5' (i + 1) (by omega) r ⟨t - 4 * (i + 1), by omega⟩
    have e : 4 * (i + 1) + (t - 4 * (i + 1)) = t := by omega
    simp only [e, he'] at e1 e2
    rw [← e1, ← e2]

example : ∃ c c' : Aes.Aes, Aes.with128 (seqKey 16) = .ok c ∧ Aes.with128 (seqKey 16) = .ok c' ∧ c.keys[10]? = c'.keys[10]? := by
  obtain ⟨c, _, h, _⟩ := with128_spec (seqKey 16)
  exact ⟨c, c, h, h, rfl⟩

/-- The last round keys of two different keys differ. -/
example : ∃ c c' : Aes.Aes, Aes.with128 (seqKey 16) = .ok c ∧ Aes.with128 (Vector.replicate 16 0#8) = .ok c' ∧
    c.keys[10]? ≠ c'.keys[10]? := by
  obtain ⟨c, _, h, _⟩ := with128_spec (seqKey 16)
  obtain ⟨c', _, h', _⟩ := with128_spec (Vector.replicate 16 0#8)
  exact ⟨c, c', h, h', fun he => absurd (C70_aes128_round_key_determines_key _ _ c c' h h' 10 (by decide) he) (by decide)⟩

end Verif.Props
