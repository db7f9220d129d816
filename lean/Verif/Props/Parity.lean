import Verif.Spec.Chained
import Verif.Proof.Parity
import Verif.Props.Aes
import Verif.Props.Rc2
import Verif.Props.Rc5

/-! # C158: all block ciphers of the crate are even permutations of the blocks -/

namespace Verif.Props
open Verif Verif.Model Verif.Parity
open _root_.Verif.Spec.Chained (Chained)

/-- The ciphers with blocks of 8 bytes: RC2 and RC5 with all keys. -/
inductive Cipher8 : BlockCipher 8 → Prop
  | rc2 (key : List U8) (bits : U16) (k) : Rc2.fromKey key bits = .ok k → Cipher8 (Rc2.cipher k)
  | rc5 (key : List U8) (rounds : U8) (k) : Rc5.new key rounds = .ok k → Cipher8 (Rc5.cipher k)

/-- The ciphers with blocks of 16 bytes: AES with all keys of the three lengths. -/
inductive Cipher16 : BlockCipher 16 → Prop
  | aes (c) : BuiltAes c → Cipher16 (Aes.cipher c)

/-- An even permutation of all blocks. -/
def EvenCipher {N : Nat} (c : BlockCipher N) : Prop :=
  ∃ σ : Equiv.Perm (Vector U8 N), (∀ b, c.encrypt b = .ok (σ b)) ∧ (∀ b, c.decrypt b = .ok (σ.symm b)) ∧
    Equiv.Perm.sign σ = 1

theorem even_cipher {N : Nat} (c : BlockCipher N) (f : Vector U8 N → Vector U8 N) (hf : EvenMap f)
    (henc : ∀ b, c.encrypt b = .ok (f b)) (hdec : ∀ b, c.decrypt (f b) = .ok b) : EvenCipher c := by
  obtain ⟨σ, h1, h2⟩ := hf
  refine ⟨σ, fun b => by rw [henc, h1], fun b => ?_, h2⟩
  have := hdec (σ.symm b)
  rwa [← h1, σ.apply_symm_apply] at this

/-- C158: RC2 and RC5 are even permutations. -/
theorem C158_even8 (c : BlockCipher 8) (hc : Cipher8 c) : EvenCipher c := by
  cases hc with
  | rc2 key bits k h =>
    exact even_cipher _ _ (even_rc2 k) (fun b => rfl) (fun b => congrArg Except.ok (Rc2.decrypt_encrypt k b))
  | rc5 key rounds k h =>
    have hne : key ≠ [] := by
      rintro rfl
      rw [Rc5.new_nil] at h
      cases h
    have hlt : key.length < 256 := by
      by_contra hlt
      simp [Rc5.new, hlt] at h
    obtain ⟨k', hk, hr, hs⟩ := Rc5.new_spec key hne hlt rounds
    rw [h] at hk
    obtain rfl := Except.ok.inj hk
    have hw : Rc5.Wf k := ⟨_, by rw [hr]; exact hs⟩
    obtain ⟨f, h1, h2⟩ := even_rc5 hw
    refine even_cipher _ f h1 h2 fun b => ?_
    obtain ⟨e, h3, h4⟩ := Rc5.dec_enc hw b
    rw [h2] at h3
    obtain rfl := Except.ok.inj h3
    exact h4

/-- C158: AES is an even permutation. -/
theorem C158_even16 (c : BlockCipher 16) (hc : Cipher16 c) : EvenCipher c := by
  cases hc with
  | aes c hc =>
    refine even_cipher _ _ (even_encPure (Aes.keyFn c) c.rounds) (fun b => Aes.encrypt_eq c hc.length b) fun b => ?_
    exact (Aes.decrypt_eq c hc.length _).trans (by rw [Aes.decPure_encPure])

/-- C158: and so is everything that can be made from them by encrypting and decrypting again and again, with any keys. -/
theorem C158_chained {N : Nat} {allowed : BlockCipher N → Prop} (hall : ∀ c, allowed c → EvenCipher c)
    {f : Vector U8 N → R (Vector U8 N)} (hf : Chained allowed f) :
    ∃ σ : Equiv.Perm (Vector U8 N), (∀ b, f b = .ok (σ b)) ∧ Equiv.Perm.sign σ = 1 := by
  induction hf with
  | nothing => exact ⟨1, fun b => rfl, Equiv.Perm.sign_one⟩
  | encrypt _ hc ih =>
    obtain ⟨σ, h1, h2⟩ := ih
    obtain ⟨ρ, h3, h4, h5⟩ := hall _ hc
    refine ⟨ρ * σ, fun b => ?_, by rw [Equiv.Perm.sign_mul, h5, h2, mul_one]⟩
    simp only [h1, bind, Except.bind, h3, Equiv.Perm.mul_apply]
  | decrypt _ hc ih =>
    obtain ⟨σ, h1, h2⟩ := ih
    obtain ⟨ρ, h3, h4, h5⟩ := hall _ hc
    refine ⟨ρ⁻¹ * σ, fun b => ?_, by rw [Equiv.Perm.sign_mul, Equiv.Perm.sign_inv, h5, h2, mul_one]⟩
    simp only [h1, bind, Except.bind, h4, Equiv.Perm.mul_apply]
    rfl

theorem all_but_two {X : Type} [Fintype X] [DecidableEq X] (σ ρ : Equiv.Perm X) (h : Equiv.Perm.sign σ = Equiv.Perm.sign ρ)
    (x y : X) (hxy : ∀ z, z ≠ x → z ≠ y → σ z = ρ z) : σ = ρ := by
  set π := ρ⁻¹ * σ with hπ
  have hfix : ∀ z, z ≠ x → z ≠ y → π z = z := fun z h1 h2 => by
    rw [hπ, Equiv.Perm.mul_apply, hxy z h1 h2]
    exact ρ.symm_apply_apply z
  have hsign : Equiv.Perm.sign π = 1 := by
    rw [hπ, Equiv.Perm.sign_mul, Equiv.Perm.sign_inv, h, Int.units_mul_self]
  have hone : π = 1 := by
    by_cases hx : π x = x
    · ext z
      by_cases hzx : z = x
      · rw [hzx, hx]; rfl
      · by_cases hzy : z = y
        · subst hzy
          by_contra hne
          have hz : π z ≠ z := hne
          have h1 : π z ≠ x := fun h => hzx (π.injective (h.trans hx.symm))
          exact hz (π.injective (hfix _ h1 hz))
        · exact hfix z hzx hzy
    · have hxy' : x ≠ y := by
        rintro rfl
        have : π (π x) = π x := hfix _ hx hx
        exact hx (π.injective this)
      have h1 : π x = y := by
        by_contra hne
        exact hx (π.injective (hfix _ hx hne))
      have h2 : π y = x := by
        by_contra hne
        have h3 : π y ≠ y := fun h => hxy' (π.injective (h1.trans h.symm))
        exact h3 (π.injective (hfix _ hne h3))
      have hs : π = Equiv.swap x y := by
        ext z
        by_cases hzx : z = x
        · rw [hzx, h1, Equiv.swap_apply_left]
        · by_cases hzy : z = y
          · rw [hzy, h2, Equiv.swap_apply_right]
          · rw [hfix z hzx hzy, Equiv.swap_apply_of_ne_of_ne hzx hzy]
      rw [hs, Equiv.Perm.sign_swap hxy'] at hsign
      exact absurd hsign (by decide)
  rw [hπ] at hone
  exact (inv_mul_eq_one.1 hone).symm

/-- C158: two of these that agree on all blocks but two agree on these two as well. So the last two entries of a code book
are known from the others. -/
theorem C158_all_but_two {N : Nat} {allowed : BlockCipher N → Prop} (hall : ∀ c, allowed c → EvenCipher c)
    {f g : Vector U8 N → R (Vector U8 N)} (hf : Chained allowed f) (hg : Chained allowed g) (x y : Vector U8 N)
    (h : ∀ z, z ≠ x → z ≠ y → f z = g z) : f = g := by
  obtain ⟨σ, h1, h2⟩ := C158_chained hall hf
  obtain ⟨ρ, h3, h4⟩ := C158_chained hall hg
  have := all_but_two σ ρ (by rw [h2, h4]) x y fun z hx hy => by
    have := h z hx hy
    rw [h1, h3] at this
    exact Except.ok.inj this
  funext z
  rw [h1, h3, this]

/-- C158: for blocks of 8 bytes: any mixture of RC2 and RC5. -/
theorem C158_code_book8 {f g : Vector U8 8 → R (Vector U8 8)} (hf : Chained Cipher8 f) (hg : Chained Cipher8 g)
    (x y : Vector U8 8) (h : ∀ z, z ≠ x → z ≠ y → f z = g z) : f = g := C158_all_but_two C158_even8 hf hg x y h

/-- C158: for blocks of 16 bytes: any mixture of AES with keys of all lengths. -/
theorem C158_code_book16 {f g : Vector U8 16 → R (Vector U8 16)} (hf : Chained Cipher16 f) (hg : Chained Cipher16 g)
    (x y : Vector U8 16) (h : ∀ z, z ≠ x → z ≠ y → f z = g z) : f = g := C158_all_but_two C158_even16 hf hg x y h

/-- C158: so no keys, however many, exchange two blocks and leave all others alone. -/
theorem C158_no_exchange {f : Vector U8 16 → R (Vector U8 16)} (hf : Chained Cipher16 f) (x y : Vector U8 16)
    (hrest : ∀ z, z ≠ x → z ≠ y → f z = .ok z) : f x = .ok x ∧ f y = .ok y := by
  have := C158_code_book16 hf .nothing x y hrest
  rw [this]
  exact ⟨rfl, rfl⟩

/-- C158: the same for the ciphers with blocks of 8 bytes. -/
theorem C158_no_exchange8 {f : Vector U8 8 → R (Vector U8 8)} (hf : Chained Cipher8 f) (x y : Vector U8 8)
    (hrest : ∀ z, z ≠ x → z ≠ y → f z = .ok z) : f x = .ok x ∧ f y = .ok y := by
  have := C158_code_book8 hf .nothing x y hrest
  rw [this]
  exact ⟨rfl, rfl⟩

/-- Not vacuous: encrypting with RC2 and decrypting with RC5; encrypting with an AES key of 128 bits and decrypting with one of
256 bits. What they do to one block: it is changed. -/
example : ∃ k1 k2, Rc2.fromKey (List.replicate 8 0#8) 63#16 = .ok k1 ∧ Rc5.new (List.replicate 16 0#8) 12#8 = .ok k2 ∧
    Chained Cipher8 (fun b => do (Rc5.cipher k2).decrypt (← (do (Rc2.cipher k1).encrypt (← .ok b)))) := by
  obtain ⟨k1, _, _, h1, _⟩ := Rc2.expandKey_spec (List.replicate 8 0#8) (by decide) (by decide) 63#16 (by decide) (by decide)
  obtain ⟨k2, h2, _⟩ := Rc5.new_spec (List.replicate 16 0#8) (by decide) (by decide) 12#8
  have h1' : Rc2.fromKey (List.replicate 8 0#8) 63#16 = .ok ⟨k1⟩ := by simp only [Rc2.fromKey, h1, bind, Except.bind]
  exact ⟨⟨k1⟩, k2, h1', h2, .decrypt (.encrypt .nothing (.rc2 _ _ _ h1')) (.rc5 _ _ _ h2)⟩
example : ∃ c1 c2, Aes.with128 (seqKey 16) = .ok c1 ∧ Aes.with256 (seqKey 32) = .ok c2 ∧
    Chained Cipher16 (fun b => do (Aes.cipher c2).decrypt (← (do (Aes.cipher c1).encrypt (← .ok b)))) := by
  obtain ⟨⟨c1, h1⟩, _, ⟨c2, h2⟩⟩ := C20_aes_total (seqKey 16) (seqKey 24) (seqKey 32)
  exact ⟨c1, c2, h1, h2, .decrypt (.encrypt .nothing (.aes _ (.k128 _ _ h1))) (.aes _ (.k256 _ _ h2))⟩
example : (do Aes.decrypt (← Aes.with256 (seqKey 32)) (← Aes.encrypt (← Aes.with128 (seqKey 16)) (Vector.replicate 16 0#8))) ≠
    .ok (Vector.replicate 16 0#8) := by decide +kernel

end Verif.Props
