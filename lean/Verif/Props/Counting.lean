import Verif.Props.PaddingOracle
import Verif.Props.BigExact
import Mathlib.SetTheory.Cardinal.Finite
import Mathlib.Data.Fintype.Vector
import Mathlib.Algebra.Ring.GeomSum
import Mathlib.Algebra.Order.Ring.GeomSum
import Mathlib.Logic.Equiv.Fin.Basic
import Mathlib.Data.Fintype.BigOperators

/-! # C131: how many blocks and ciphertexts unpadding accepts -/

namespace Verif.Props
open Verif Model Spec

/-! ## Helpers -/

/-- Bytes are the numbers below 256. -/
def byteEquiv : U8 ≃ Fin 256 where
  toFun b := ⟨b.toNat, b.isLt⟩
  invFun i := BitVec.ofNat 8 i
  left_inv b := by simp
  right_inv i := by ext; simp

instance : Finite U8 := Finite.of_equiv _ byteEquiv.symm

/-- Blocks are functions from positions to bytes. -/
def blockEquiv (N : Nat) : Vector U8 N ≃ (Fin N → U8) where
  toFun v i := v[i]
  invFun f := Vector.ofFn f
  left_inv v := by apply Vector.ext; simp
  right_inv f := by ext; simp

theorem card_byte : Nat.card U8 = 256 := by
  rw [Nat.card_congr byteEquiv, Nat.card_fin]

theorem card_block (N : Nat) : Nat.card (Vector U8 N) = 256 ^ N := by
  rw [Nat.card_congr (blockEquiv N), Nat.card_fun, card_byte, Nat.card_fin]

instance (N : Nat) : Finite (Vector U8 N) := Finite.of_equiv _ (blockEquiv N).symm

/-- Byte strings of length `n` are blocks. -/
def stringEquiv (n : Nat) : {l : List U8 // l.length = n} ≃ Vector U8 n where
  toFun l := ⟨l.1.toArray, by simp [l.2]⟩
  invFun v := ⟨v.toList, by simp⟩
  left_inv l := by simp
  right_inv v := by rcases v with ⟨⟨l⟩, h⟩; rfl

theorem card_strings (n : Nat) : Nat.card {l : List U8 // l.length = n} = 256 ^ n := by
  rw [Nat.card_congr (stringEquiv n), card_block]

/-- Byte strings shorter than `n`. -/
def shortEquiv (n : Nat) : {l : List U8 // l.length < n} ≃ Σ k : Fin n, {l : List U8 // l.length = k} where
  toFun l := ⟨⟨l.1.length, l.2⟩, ⟨l.1, rfl⟩⟩
  invFun x := ⟨x.2.1, by rw [x.2.2]; exact x.1.2⟩
  left_inv l := rfl
  right_inv x := by
    obtain ⟨⟨k, hk⟩, ⟨l, hl⟩⟩ := x
    have hl' : l.length = k := hl
    subst hl'
    rfl

theorem card_short (n : Nat) : 255 * Nat.card {l : List U8 // l.length < n} + 1 = 256 ^ n := by
  have hfin : ∀ k : Fin n, Finite {l : List U8 // l.length = k} := fun k => Finite.of_equiv _ (stringEquiv k).symm
  rw [Nat.card_congr (shortEquiv n), Nat.card_sigma]
  simp only [card_strings]
  rw [Fin.sum_univ_eq_sum_range (fun i => 256 ^ i) n]
  have := Nat.geomSum_eq (m := 256) (by decide) n
  have h2 : 255 * ((256 ^ n - 1) / 255) = 256 ^ n - 1 := Nat.mul_div_cancel' (by
    simpa using Nat.sub_dvd_pow_sub_pow 256 1 n)
  rw [this, show (256 - 1 : Nat) = 255 from rfl, h2]
  have : 0 < 256 ^ n := Nat.pow_pos (by decide)
  omega

theorem card_small (N : Nat) : Nat.card {b : U8 // b.toNat ≤ N} = min (N + 1) 256 := by
  have e : {b : U8 // b.toNat ≤ N} ≃ Fin (min (N + 1) 256) :=
    { toFun := fun b => ⟨b.1.toNat, by have := b.2; have := b.1.isLt; omega⟩
      invFun := fun i => ⟨BitVec.ofNat 8 i, by
        have := i.2
        rw [BitVec.toNat_ofNat, Nat.mod_eq_of_lt (by omega)]
        omega⟩
      left_inv := fun b => by simp
      right_inv := fun i => by
        have := i.2
        ext
        simp only [BitVec.toNat_ofNat]
        exact Nat.mod_eq_of_lt (by omega) }
  rw [Nat.card_congr e, Nat.card_fin]

theorem card_last_small (n : Nat) : Nat.card {b : Vector U8 (n + 1) // (b[n]).toNat ≤ n + 1} = min (n + 2) 256 * 256 ^ n := by
  have e1 : {b : Vector U8 (n + 1) // (b[n]).toNat ≤ n + 1} ≃ {x : U8 × (Fin n → U8) // x.1.toNat ≤ n + 1} :=
    ((blockEquiv (n + 1)).trans (Fin.insertNthEquiv (fun _ => U8) (Fin.last n)).symm).subtypeEquiv (by
      intro b
      simp [blockEquiv, Fin.insertNthEquiv])
  rw [Nat.card_congr e1, Nat.card_congr (Equiv.prodSubtypeFstEquivSubtypeProd (p := fun b : U8 => b.toNat ≤ n + 1)),
    Nat.card_prod, card_small, Nat.card_fun, card_byte, Nat.card_fin]

/-! ## C131 -/

/-- C131: of the `256 ^ N` blocks, `PkcsPadding::unpad` accepts `N + 1` in 256 (all of them if `N` is 255 or more), … -/
theorem C131_pkcs_accepted (N : Nat) (hN : 1 ≤ N) :
    Nat.card {b : Vector U8 N // ∃ n, Pad.pkcsUnpad N b = .ok n} = min (N + 1) 256 * 256 ^ (N - 1) := by
  obtain ⟨n, rfl⟩ : ∃ n, N = n + 1 := ⟨N - 1, by omega⟩
  rw [← Nat.card_congr (Equiv.subtypeEquivRight fun b : Vector U8 (n + 1) =>
    (show (b[n]).toNat ≤ n + 1 ↔ ∃ k, Pad.pkcsUnpad (n + 1) b = .ok k from ?_)), card_last_small]
  · rfl
  · rw [Pad.pkcsUnpad_of_last (by omega)]
    simp only [Nat.add_sub_cancel]
    constructor
    · intro h
      exact ⟨_, if_neg (by omega)⟩
    · rintro ⟨k, h⟩
      by_contra h2
      rw [if_pos (by omega)] at h
      cases h

theorem card_image_of_inj {N : Nat} (pad : List U8 → R (Vector U8 N)) (hok : ∀ x, x.length < N → ∃ b, pad x = .ok b)
    (hinj : ∀ x y b, pad x = .ok b → pad y = .ok b → x = y) (hbad : ∀ x b, pad x = .ok b → x.length < N) :
    Nat.card {b : Vector U8 N // ∃ x, pad x = .ok b} = Nat.card {l : List U8 // l.length < N} := by
  refine (Nat.card_congr (Equiv.ofBijective
    (fun x : {l : List U8 // l.length < N} => (⟨(hok x.1 x.2).choose, x.1, (hok x.1 x.2).choose_spec⟩ :
      {b : Vector U8 N // ∃ x, pad x = .ok b})) ⟨?_, ?_⟩)).symm
  · intro x y h
    have h1 := (hok x.1 x.2).choose_spec
    have h2 := (hok y.1 y.2).choose_spec
    rw [show (hok x.1 x.2).choose = (hok y.1 y.2).choose from congrArg Subtype.val h] at h1
    exact Subtype.ext (hinj _ _ _ h1 h2)
  · rintro ⟨b, x, hx⟩
    refine ⟨⟨x, hbad x b hx⟩, ?_⟩
    have h1 := (hok x (hbad x b hx)).choose_spec
    exact Subtype.ext (Except.ok.inj (hx.symm.trans h1)).symm

/-- C131: … although only about 1 in 255 is a padding of something. -/
theorem C131_pkcs_padded (N : Nat) (hN : N ≤ 255) :
    255 * Nat.card {b : Vector U8 N // ∃ x, Pad.pkcsPad N x = .ok b} + 1 = 256 ^ N := by
  have hbad : ∀ x b, Pad.pkcsPad N x = .ok b → x.length < N := by
    intro x b h
    by_contra h2
    obtain ⟨e, he⟩ := (C05_pkcs_pad_panics N x).2 (by omega)
    rw [h] at he
    cases he
  rw [card_image_of_inj _ ?_ ?_ hbad, card_short]
  · intro x hx
    obtain ⟨b, hb, _⟩ := C05_pkcs_roundtrip hN x hx
    exact ⟨b, hb⟩
  · intro x y b hx hy
    obtain ⟨b1, h1, h2, h3⟩ := C05_pkcs_roundtrip hN x (hbad _ _ hx)
    obtain ⟨b2, h4, h5, h6⟩ := C05_pkcs_roundtrip hN y (hbad _ _ hy)
    rw [hx] at h1
    rw [hy] at h4
    cases h1
    cases h4
    rw [h3] at h6
    have hl : x.length = y.length := Except.ok.inj h6
    have h7 := h2.symm.trans h5
    unfold pkcs7 at h7
    exact (List.append_inj h7 hl).1

/-- C131: `BitPadding::unpad` accepts the `256 ^ N - 255 ^ N` blocks with a marker byte anywhere, … -/
theorem C131_bit_accepted (N : Nat) :
    Nat.card {b : Vector U8 N // ∃ r, Pad.bitUnpad N b = .ok r} + 255 ^ N = 256 ^ N := by
  have e : {b : Vector U8 N // ¬ ∃ r, Pad.bitUnpad N b = .ok r} ≃ (Fin N → {b : U8 // b ≠ 0x80#8}) :=
    ((blockEquiv N).subtypeEquiv (q := fun f => ∀ i, f i ≠ 0x80#8) (by
      intro b
      have h := C08_bit_unpad_panics b
      have h2 : (¬ ∃ r, Pad.bitUnpad N b = .ok r) ↔ ∃ e, Pad.bitUnpad N b = .error e := by
        rcases Pad.bitUnpad N b with e | r <;> simp
      rw [h2, h]
      constructor
      · intro h3 i h4
        apply h3
        rw [← h4]
        simp [blockEquiv]
      · intro h3 h4
        obtain ⟨i, hi, h5⟩ := List.getElem_of_mem h4
        exact h3 ⟨i, by simpa using hi⟩ (by simpa [blockEquiv] using h5))).trans
      (Equiv.subtypePiEquivPi (β := fun _ : Fin N => U8) (p := fun _ b => b ≠ 0x80#8))
  have hb : Nat.card {b : U8 // b ≠ 0x80#8} = 255 := by
    have h1 : Nat.card {b : U8 // b ≠ 0x80#8} = Nat.card {i : Fin 256 // i ≠ 128} :=
      Nat.card_congr (byteEquiv.subtypeEquiv (by
        intro b
        rw [not_iff_not, ← byteEquiv.apply_eq_iff_eq]
        rfl))
    rw [h1, Nat.card_eq_fintype_card]
    decide +kernel
  classical
  have h1 : Nat.card {b : Vector U8 N // ¬ ∃ r, Pad.bitUnpad N b = .ok r} = 255 ^ N := by
    rw [Nat.card_congr e, Nat.card_fun, hb, Nat.card_fin]
  rw [← h1, ← card_block N, ← Nat.card_congr (Equiv.sumCompl fun b : Vector U8 N => ∃ r, Pad.bitUnpad N b = .ok r), Nat.card_sum]

/-- C131: … although likewise only about 1 in 255 is a padding. -/
theorem C131_bit_padded (N : Nat) :
    255 * Nat.card {b : Vector U8 N // ∃ x, Pad.bitPad N x = .ok b} + 1 = 256 ^ N := by
  have hbad : ∀ x b, Pad.bitPad N x = .ok b → x.length < N := by
    intro x b h
    by_contra h2
    obtain ⟨e, he⟩ := (C08_bit_pad_panics N x).2 (by omega)
    rw [h] at he
    cases he
  rw [card_image_of_inj _ ?_ ?_ hbad, card_short]
  · intro x hx
    obtain ⟨b, _, hb, _⟩ := C08_bit_roundtrip x hx
    exact ⟨b, hb⟩
  · intro x y b hx hy
    obtain ⟨b1, _, h1, h2, h3, _⟩ := C08_bit_roundtrip x (hbad _ _ hx)
    obtain ⟨b2, _, h4, h5, h6, _⟩ := C08_bit_roundtrip y (hbad _ _ hy)
    rw [hx] at h1
    rw [hy] at h4
    cases h1
    cases h4
    rw [h3] at h6
    have hl : x.length = y.length := by
      have := Except.ok.inj h6
      exact (Prod.mk.inj this).2
    exact (List.append_inj (h2.symm.trans h5) hl).1

/-- Cutting a string of `a + N` bytes. -/
def cutEquiv (a N : Nat) : {l : List U8 // l.length = a + N} ≃ {l : List U8 // l.length = a} × Vector U8 N where
  toFun l := (⟨l.1.take a, by simp [l.2]⟩, ⟨(l.1.drop a).toArray, by simp [l.2]⟩)
  invFun x := ⟨x.1.1 ++ x.2.toList, by simp [x.1.2]⟩
  left_inv l := by simp
  right_inv x := by
    obtain ⟨⟨l, rfl⟩, ⟨⟨m⟩, h⟩⟩ := x
    simp

theorem ecb_accepts {n : Nat} (c : BlockCipher (n + 1)) (hc : Invertible c) (k : Nat) (front : List U8)
    (hf : front.length = (n + 1) * k) (b o : Vector U8 (n + 1)) (ho : c.decrypt b = .ok o) :
    (blockDecrypt (ecb (n + 1)) c () (front ++ b.toList)).result = .ok () ↔ (o[n]).toNat ≤ n + 1 := by
  obtain ⟨bs, tail, e, ht, _⟩ := exists_chunks (Nat.succ_pos n) front
  rw [hf, Nat.mul_mod_right, List.length_eq_zero_iff] at ht
  subst ht
  rw [List.append_nil] at e
  have htot : ∀ (s : Unit) (b : Vector U8 (n + 1)), ∃ r s', (ecb (n + 1)).decryptBlock c s b = .ok (r, s') := by
    intro s b
    obtain ⟨r, hr⟩ := decrypt_total hc b
    exact ⟨r, (), by simp [ecb, hr, Except.map]⟩
  obtain ⟨os, s1, h1⟩ := steps_total htot () bs
  have h2 : Steps ((ecb (n + 1)).decryptBlock c) s1 [b] [o] () :=
    .cons (s1 := ()) (by simp [ecb, ho, Except.map]) (.nil _)
  have h3 := (C121_verdict (by omega) (ecb (n + 1)) c () () _ _ _ (steps_append h1 h2)).1
  rw [e, show bs.flatMap Vector.toList ++ b.toList = (bs ++ [b]).flatMap Vector.toList by simp, h3]
  simp only [Nat.add_sub_cancel]
  by_cases h : (o[n]).toNat ≤ n + 1
  · rw [if_pos h]
    exact ⟨fun _ => h, fun _ => rfl⟩
  · rw [if_neg h]
    exact ⟨fun h2 => (nomatch h2), fun h2 => absurd h2 h⟩

/-- C131: whatever the cipher and its key, decryption in ECB mode accepts `N + 1` in 256 of the ciphertexts of any length
(1 in 15 for AES, 1 in 28 for RC2 and RC5), so it does not notice a wrong key or a damaged ciphertext. -/
theorem C131_ecb_accepted {N : Nat} (hN : 1 ≤ N) (c : BlockCipher N) (hc : Invertible c) (k : Nat) :
    Nat.card {ct : List U8 // ct.length = N * (k + 1) ∧ (blockDecrypt (ecb N) c () ct).result = .ok ()} =
      min (N + 1) 256 * 256 ^ (N * (k + 1) - 1) := by
  obtain ⟨n, rfl⟩ : ∃ n, N = n + 1 := ⟨N - 1, by omega⟩
  obtain ⟨enc, h1, h2⟩ := invertible_enc hc
  let E : Vector U8 (n + 1) ≃ Vector U8 (n + 1) := Equiv.ofBijective enc (Finite.injective_iff_bijective.1 h2)
  have hE : ∀ b, c.decrypt b = .ok (E.symm b) := by
    intro b
    obtain ⟨o, e1, e2⟩ := hc (E.symm b)
    rw [h1] at e1
    have : o = b := (Except.ok.inj e1).symm.trans (E.apply_symm_apply b)
    rw [← this, e2, this]
  have e1 : {ct : List U8 // ct.length = (n + 1) * (k + 1) ∧ (blockDecrypt (ecb (n + 1)) c () ct).result = .ok ()} ≃
      {x : Vector U8 (n + 1) × {l : List U8 // l.length = (n + 1) * k} // ((x.1)[n]).toNat ≤ n + 1} :=
    (Equiv.subtypeSubtypeEquivSubtypeInter (fun ct : List U8 => ct.length = (n + 1) * (k + 1))
      (fun ct => (blockDecrypt (ecb (n + 1)) c () ct).result = .ok ())).symm.trans
    (((cutEquiv ((n + 1) * k) (n + 1)).trans ((Equiv.prodComm _ _).trans (Equiv.prodCongr E.symm (Equiv.refl _)))).subtypeEquiv (by
      intro ct
      obtain ⟨ct, hct⟩ := ct
      have h := ecb_accepts c hc k (ct.take ((n + 1) * k)) (by simp [hct]) ⟨(ct.drop ((n + 1) * k)).toArray, by
        simp [hct]⟩ _ (hE _)
      simp only [List.take_append_drop, Vector.toList_mk] at h
      simpa [cutEquiv] using h))
  rw [Nat.card_congr e1, Nat.card_congr (Equiv.prodSubtypeFstEquivSubtypeProd
    (p := fun b : Vector U8 (n + 1) => (b[n]).toNat ≤ n + 1)), Nat.card_prod, card_last_small, card_strings, Nat.mul_assoc,
    ← Nat.pow_add]
  congr 2
  rw [Nat.mul_succ]
  omega

/-- C131 for AES with any key. -/
theorem C131_aes {c : Aes.Aes} (hc : BuiltAes c) (k : Nat) :
    Nat.card {ct : List U8 // ct.length = 16 * (k + 1) ∧ (blockDecrypt (ecb 16) (Aes.cipher c) () ct).result = .ok ()} =
      17 * 256 ^ (16 * k + 15) :=
  C131_ecb_accepted (by decide) _ (C121_ciphers.1 c hc) k

/-- The numbers for the block sizes of the crate: 9 of 256 and 17 of 256 blocks are accepted; with bit padding and a block
size of 4 there are 66716671 acceptable blocks and 16843009 paddings. -/
example : min (8 + 1) 256 = 9 ∧ min (16 + 1) 256 = 17 ∧ 66716671 + 255 ^ 4 = 256 ^ 4 ∧ 255 * 16843009 + 1 = 256 ^ 4 := by
  decide

/-- A block that is not a padding and is accepted, for both. -/
example : Pad.pkcsUnpad 4 #v[9, 9, 9, 3] = .ok 1 ∧ Pad.bitUnpad 4 #v[9, 0x80#8, 9, 3] = .ok (#v[9, 0, 0, 0], 1) := by
  decide +kernel

end Verif.Props
