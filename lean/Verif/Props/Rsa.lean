import Verif.Proof.Rsa
import Verif.Props.Big
import Mathlib.Tactic.NormNum.Prime

/-! # C47–C50: RSA keys and textbook RSA

`Spec.Big.big n` is the normalised `BigUint` of `n` (see C35). -/

namespace Verif.Props
open Verif Verif.Model.Big Verif.Model.Rsa Verif.Spec.Big

/-! ## C47 -/

/-- C47: the inverse is found exactly when there is one, and nothing overflows. -/
theorem C47_inverse (a n : Nat) (ha : a < 2 ^ 128) (hn0 : 0 < n) (hn : n < 2 ^ 127) :
    (Nat.Coprime a n → ∃ t, inverse a n = .ok (some t) ∧ t ≤ n ∧ a * t ≡ 1 [MOD n]) ∧
    (¬ Nat.Coprime a n → inverse a n = .ok none) := Model.Rsa.inverse_ok a n ha hn0 hn

example : inverse 17 780 = .ok (some 413) ∧ inverse 26 780 = .ok none ∧ 17 * 413 % 780 = 1 ∧
    inverse 65537 (2 ^ 127 - 1) = .ok (some 5192217631581220737344928932233215) := by
  refine ⟨by decide +kernel, by decide +kernel, by decide, by decide +kernel⟩

/-- C47: the answer is unique below `n`: two calls with congruent arguments give congruent inverses. -/
theorem C47_unique (a b n t s : Nat) (ha : a < 2 ^ 128) (hb : b < 2 ^ 128) (hn0 : 0 < n) (hn : n < 2 ^ 127)
    (hab : a ≡ b [MOD n]) (h1 : inverse a n = .ok (some t)) (h2 : inverse b n = .ok (some s)) : t ≡ s [MOD n] := by
  have key : ∀ x u, x < 2 ^ 128 → inverse x n = .ok (some u) → x * u ≡ 1 [MOD n] := by
    intro x u hx h
    by_cases hg : Nat.Coprime x n
    · obtain ⟨v, e, _, hv⟩ := (C47_inverse x n hx hn0 hn).1 hg
      rw [e] at h
      injection h with h
      injection h with h
      exact h ▸ hv
    · rw [(C47_inverse x n hx hn0 hn).2 hg] at h
      injection h with h
      cases h
  have ht := key a t ha h1
  have hs := key b s hb h2
  calc t ≡ 1 * t [MOD n] := by rw [Nat.one_mul]
    _ ≡ (b * s) * t [MOD n] := hs.symm.mul_right t
    _ ≡ (a * s) * t [MOD n] := (hab.symm.mul_right s).mul_right t
    _ = (a * t) * s := by ring
    _ ≡ 1 * s [MOD n] := ht.mul_right s
    _ = s := Nat.one_mul s

/-! ## C48 -/

/-- C48: key generation for two primes with a product below 2^128 gives the modulus, the public exponent and a matching
private exponent, without overflow. -/
theorem C48_create_keys (p q e : Nat) (hp : p.Prime) (hq : q.Prime) (hpq : p * q < 2 ^ 128) (he : e < 2 ^ 128)
    (hco : Nat.Coprime e (Nat.lcm (p - 1) (q - 1))) :
    ∃ d, createKeys (big p) (big q) (big e) = .ok (⟨big (p * q), big d⟩, ⟨big (p * q), big e⟩) ∧
      e * d ≡ 1 [MOD Nat.lcm (p - 1) (q - 1)] ∧ d ≤ Nat.lcm (p - 1) (q - 1) := by
  have hl := Model.Rsa.lcm_lt p q hp hq hpq
  have hl0 : 0 < Nat.lcm (p - 1) (q - 1) :=
    Nat.lcm_pos (by have := hp.two_le; omega) (by have := hq.two_le; omega)
  obtain ⟨d, h1, h2, h3⟩ := (C47_inverse e _ he hl0 hl).1 hco
  exact ⟨d, (Model.Rsa.createKeys_eq p q e hp hq hpq he).1 d h1 (by omega), h3, h2⟩

/-- C48: an exponent without an inverse makes key generation panic; no key comes out. -/
theorem C48_create_keys_panics (p q e : Nat) (hp : p.Prime) (hq : q.Prime) (hpq : p * q < 2 ^ 128) (he : e < 2 ^ 128)
    (hco : ¬ Nat.Coprime e (Nat.lcm (p - 1) (q - 1))) :
    createKeys (big p) (big q) (big e) = .error .unwrap := by
  have hl := Model.Rsa.lcm_lt p q hp hq hpq
  have hl0 : 0 < Nat.lcm (p - 1) (q - 1) :=
    Nat.lcm_pos (by have := hp.two_le; omega) (by have := hq.two_le; omega)
  exact (Model.Rsa.createKeys_eq p q e hp hq hpq he).2 ((C47_inverse e _ he hl0 hl).2 hco)

/-- C48: primes whose product does not fit in a `u128` make key generation panic instead of giving a wrong key. -/
theorem C48_create_keys_too_big (p q e : Nat) (hp : p < 2 ^ 128) (hq : q < 2 ^ 128) (he : e < 2 ^ 128)
    (hpq : 2 ^ 128 ≤ p * q) : createKeys (big p) (big q) (big e) = .error .overflow :=
  Model.Rsa.createKeys_overflow p q e hp hq he hpq

/-- C48: so do numbers that do not fit themselves. -/
theorem C48_create_keys_not_u128 (p q e : Nat) (h : 2 ^ 128 ≤ p ∨ 2 ^ 128 ≤ q ∨ 2 ^ 128 ≤ e) :
    createKeys (big p) (big q) (big e) = .error .unwrap :=
  Model.Rsa.createKeys_unwrap p q e h

example : Nat.Prime 61 ∧ Nat.Prime 53 ∧ Nat.Coprime 17 (Nat.lcm 60 52) ∧ ¬ Nat.Coprime 3 (Nat.lcm 60 52) ∧
    createKeys ⟨[61#8]⟩ ⟨[53#8]⟩ ⟨[17#8]⟩ = .ok (⟨⟨[0xa1#8, 0x0c#8]⟩, ⟨[0x9d#8, 0x01#8]⟩⟩, ⟨⟨[0xa1#8, 0x0c#8]⟩, ⟨[17#8]⟩⟩) := by
  refine ⟨by norm_num, by norm_num, by decide +kernel, by decide +kernel, by decide +kernel⟩

/-! ## C50 -/

/-- C50: encryption is modular exponentiation, and the result is below the modulus, for every modulus `≥ 2`. The only
bounds are that the numbers have at most `2^31 - 8` bits and the exponent at most `2^32 - 8`. -/
theorem C50_encrypt {cap : Nat → Nat} (hc : CapOk cap) (m e n : Nat) (hn : 2 ≤ n) (hsn : n.size ≤ 2 ^ 31 - 8)
    (hsm : m.size ≤ 2 ^ 31 - 8) (hse : e.size ≤ 2 ^ 32 - 8) :
    encrypt cap ⟨big e, big n⟩ (big m) = .ok (big (m ^ e % n)) ∧ m ^ e % n < n :=
  ⟨Model.Rsa.powMod_ok hc m e n hn hsn hsm hse, Nat.mod_lt _ (by omega)⟩

/-- C50: the same for decryption. -/
theorem C50_decrypt {cap : Nat → Nat} (hc : CapOk cap) (m e n : Nat) (hn : 2 ≤ n) (hsn : n.size ≤ 2 ^ 31 - 8)
    (hsm : m.size ≤ 2 ^ 31 - 8) (hse : e.size ≤ 2 ^ 32 - 8) :
    decrypt cap ⟨big e, big n⟩ (big m) = .ok (big (m ^ e % n)) ∧ m ^ e % n < n :=
  ⟨Model.Rsa.powMod_ok hc m e n hn hsn hsm hse, Nat.mod_lt _ (by omega)⟩

/-- Why C50 asks for a modulus `≥ 2`: with modulus 1 and exponent 0 the result is 1, not below the modulus. -/
theorem C50_modulus_one {cap : Nat → Nat} (m : Nat) : encrypt cap ⟨big 0, big 1⟩ (big m) = .ok (big 1) := by
  unfold encrypt powMod
  simp only [Model.Big.bitsUsed_norm (Model.Big.norm_big 0) (by rw [Model.Big.big_zero]; simp), Model.Big.val_big,
    Nat.size_zero, Model.Big.fromU128_eq, bind, Except.bind, powModLoop]
  rfl

example : (3233 : Nat).size ≤ 2 ^ 31 - 8 ∧ encrypt exactCap ⟨⟨[17#8]⟩, ⟨[0xa1#8, 0x0c#8]⟩⟩ ⟨[65#8]⟩ = .ok ⟨[0xe6#8, 0x0a#8]⟩ ∧
    65 ^ 17 % 3233 = 0x0ae6 := by
  refine ⟨?_, by decide +kernel, by norm_num⟩
  have : (3233 : Nat).size ≤ 12 := by rw [Nat.size_le]; norm_num
  omega

/-! ## C49 -/

/-- C49 for keys of any size: raising to `e` and then to `d` gives the number back. -/
theorem C49_roundtrip_any_size {cap : Nat → Nat} (hc : CapOk cap) (p q e d m : Nat) (hp : p.Prime) (hq : q.Prime)
    (hpq : p ≠ q) (hed : e * d ≡ 1 [MOD Nat.lcm (p - 1) (q - 1)]) (hm : m < p * q)
    (hsn : (p * q).size ≤ 2 ^ 31 - 8) (hse : e.size ≤ 2 ^ 32 - 8) (hsd : d.size ≤ 2 ^ 32 - 8) :
    (do decrypt cap ⟨big d, big (p * q)⟩ (← encrypt cap ⟨big e, big (p * q)⟩ (big m))) = .ok (big m) := by
  have hn : 2 ≤ p * q := Nat.le_trans hp.two_le (Nat.le_mul_of_pos_right p hq.pos)
  have h1 := C50_encrypt hc m e (p * q) hn hsn (Nat.le_trans (Nat.size_le_size hm.le) hsn) hse
  have h2 := C50_decrypt hc (m ^ e % (p * q)) d (p * q) hn hsn (Nat.le_trans (Nat.size_le_size h1.2.le) hsn) hsd
  simp only [h1.1, h2.1, bind, Except.bind]
  rw [← Nat.pow_mod, ← Nat.pow_mul, Model.Rsa.rsa_correct p q e d m hp hq hpq hed hm]

/-- C49: with the keys of `create_keys`, each key undoes the other, for every number below the modulus. -/
theorem C49_roundtrip {cap : Nat → Nat} (hc : CapOk cap) (p q e m : Nat) (hp : p.Prime) (hq : q.Prime) (hpq : p ≠ q)
    (hlt : p * q < 2 ^ 128) (he : e < 2 ^ 128) (sk : PrivateKey) (pk : PublicKey)
    (hk : createKeys (big p) (big q) (big e) = .ok (sk, pk)) (hm : m < p * q) :
    (do decrypt cap (.ofPrivate sk) (← encrypt cap (.ofPublic pk) (big m))) = .ok (big m) ∧
    (do decrypt cap (.ofPublic pk) (← encrypt cap (.ofPrivate sk) (big m))) = .ok (big m) := by
  by_cases hco : Nat.Coprime e (Nat.lcm (p - 1) (q - 1))
  · obtain ⟨d, h1, h2, h3⟩ := C48_create_keys p q e hp hq hlt he hco
    rw [h1] at hk
    injection hk with hk
    injection hk with hk1 hk2
    subst hk1 hk2
    have hl := Model.Rsa.lcm_lt p q hp hq hlt
    have hsz : ∀ x, x < 2 ^ 128 → x.size ≤ 128 := fun x hx => by rw [Nat.size_le]; exact hx
    have hsn := hsz _ hlt
    have hse := hsz _ he
    have hsd := hsz d (by omega)
    refine ⟨C49_roundtrip_any_size hc p q e d m hp hq hpq h2 hm (by omega) (by omega) (by omega),
      C49_roundtrip_any_size hc p q d e m hp hq hpq (by rwa [Nat.mul_comm]) hm (by omega) (by omega) (by omega)⟩
  · rw [C48_create_keys_panics p q e hp hq hlt he hco] at hk
    cases hk

example : ∃ sk pk, createKeys ⟨[61#8]⟩ ⟨[53#8]⟩ ⟨[17#8]⟩ = .ok (sk, pk) ∧
    (do decrypt exactCap (.ofPrivate sk) (← encrypt exactCap (.ofPublic pk) ⟨[53#8]⟩)) = .ok ⟨[53#8]⟩ :=
  ⟨⟨⟨[0xa1#8, 0x0c#8]⟩, ⟨[0x9d#8, 0x01#8]⟩⟩, ⟨⟨[0xa1#8, 0x0c#8]⟩, ⟨[17#8]⟩⟩, by decide +kernel, by decide +kernel⟩

/-- Why C49 asks for distinct primes: with `p = q = 5` the number 5 is lost. -/
theorem C49_equal_primes_fail : ∃ sk pk, createKeys ⟨[5#8]⟩ ⟨[5#8]⟩ ⟨[3#8]⟩ = .ok (sk, pk) ∧
    (do decrypt exactCap (.ofPrivate sk) (← encrypt exactCap (.ofPublic pk) ⟨[5#8]⟩)) = .ok ⟨[]⟩ :=
  ⟨⟨⟨[25#8]⟩, ⟨[3#8]⟩⟩, ⟨⟨[25#8]⟩, ⟨[3#8]⟩⟩, by decide +kernel, by decide +kernel⟩

/-- Textbook RSA is multiplicative: the product of two ciphertexts is the ciphertext of the product. -/
theorem C50_multiplicative {cap : Nat → Nat} (hc : CapOk cap) (x y e n : Nat) (hn : 2 ≤ n) (hsn : n.size ≤ 2 ^ 31 - 8)
    (hx : x < n) (hy : y < n) (hse : e.size ≤ 2 ^ 32 - 8) :
    ∃ cx cy, encrypt cap ⟨big e, big n⟩ (big x) = .ok (big cx) ∧ encrypt cap ⟨big e, big n⟩ (big y) = .ok (big cy) ∧
      encrypt cap ⟨big e, big n⟩ (big (x * y % n)) = .ok (big (cx * cy % n)) := by
  have hs : ∀ z, z < n → z.size ≤ 2 ^ 31 - 8 := fun z hz => Nat.le_trans (Nat.size_le_size hz.le) hsn
  refine ⟨_, _, (C50_encrypt hc x e n hn hsn (hs x hx) hse).1, (C50_encrypt hc y e n hn hsn (hs y hy) hse).1, ?_⟩
  rw [(C50_encrypt hc _ e n hn hsn (hs _ (Nat.mod_lt _ (by omega))) hse).1, ← Nat.pow_mod, ← Nat.mul_mod, Nat.mul_pow]

/-- C47, C48 and C50 applied. -/
example (s : Nat) (h : inverse (17 + 780) 780 = .ok (some s)) : 413 ≡ s [MOD 780] :=
  C47_unique 17 (17 + 780) 780 413 s (by norm_num) (by norm_num) (by norm_num) (by norm_num) (by decide) (by decide +kernel) h
example : inverse (17 + 780) 780 = .ok (some 413) := by decide +kernel
example : ∃ d, createKeys (big 61) (big 53) (big 17) = .ok (⟨big (61 * 53), big d⟩, ⟨big (61 * 53), big 17⟩) ∧
    17 * d ≡ 1 [MOD Nat.lcm (61 - 1) (53 - 1)] ∧ d ≤ Nat.lcm (61 - 1) (53 - 1) :=
  C48_create_keys 61 53 17 (by norm_num) (by norm_num) (by norm_num) (by norm_num) (by decide)
example : createKeys (big 61) (big 53) (big 3) = .error .unwrap :=
  C48_create_keys_panics 61 53 3 (by norm_num) (by norm_num) (by norm_num) (by norm_num) (by decide)
example : encrypt exactCap ⟨big 17, big 3233⟩ (big 65) = .ok (big (65 ^ 17 % 3233)) ∧
    ∃ cx cy, encrypt exactCap ⟨big 17, big 3233⟩ (big 65) = .ok (big cx) ∧ encrypt exactCap ⟨big 17, big 3233⟩ (big 100) = .ok (big cy) ∧
      encrypt exactCap ⟨big 17, big 3233⟩ (big (65 * 100 % 3233)) = .ok (big (cx * cy % 3233)) := by
  have h : ∀ x : Nat, x < 2 ^ 12 → x.size ≤ 12 := fun x => Nat.size_le.2
  have h1 := h 3233 (by norm_num)
  have h2 := h 65 (by norm_num)
  have h3 := h 17 (by norm_num)
  exact ⟨(C50_encrypt exactCap_ok 65 17 3233 (by norm_num) (by omega) (by omega) (by omega)).1,
    C50_multiplicative exactCap_ok 65 100 17 3233 (by norm_num) (by omega) (by norm_num) (by norm_num) (by omega)⟩

end Verif.Props
