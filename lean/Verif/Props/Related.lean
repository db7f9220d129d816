import Verif.Props.RsaAttacks
import Mathlib.Data.Int.ModEq
import Mathlib.Tactic.Ring

/-! # C152: two messages with a known relation under exponent 3 (M. Franklin, M. Reiter) -/

namespace Verif.Props
open Verif Verif.Model.Big Verif.Model.Rsa Verif.Spec.Big

/-- C152: if two numbers with the known relation `m' = α m + β` modulo `n` are encrypted under the public exponent 3, the first is
a solution of a linear congruence that anybody can write down from the two ciphertexts. -/
theorem C152_congruence {cap : Nat → Nat} (hc : CapOk cap) (n m α β c c' : Nat) (hn : 2 ≤ n) (hsn : n.size ≤ 2 ^ 31 - 8)
    (hm : m < n) (h : encrypt cap ⟨big 3, big n⟩ (big m) = .ok (big c))
    (h' : encrypt cap ⟨big 3, big n⟩ (big ((α * m + β) % n)) = .ok (big c')) :
    (m : Int) * (α * (c' - α ^ 3 * c + 2 * β ^ 3)) ≡ β * (c' + 2 * α ^ 3 * c - β ^ 3) [ZMOD n] := by
  have hs : ∀ z, z < n → z.size ≤ 2 ^ 31 - 8 := fun z hz => Nat.le_trans (Nat.size_le_size hz.le) hsn
  have hm' : (α * m + β) % n < n := Nat.mod_lt _ (by omega)
  have h3 : (3 : Nat).size ≤ 2 ^ 32 - 8 := by decide +kernel
  have g := (C50_encrypt hc m 3 n hn hsn (hs m hm) h3).1
  have g' := (C50_encrypt hc ((α * m + β) % n) 3 n hn hsn (hs _ hm') h3).1
  rw [h] at g
  rw [h'] at g'
  have e : c = m ^ 3 % n := by
    have := congrArg val (Except.ok.inj g)
    rwa [Model.Big.val_big, Model.Big.val_big] at this
  have e' : c' = ((α * m + β) % n) ^ 3 % n := by
    have := congrArg val (Except.ok.inj g')
    rwa [Model.Big.val_big, Model.Big.val_big] at this
  have k : (c : Int) ≡ (m : Int) ^ 3 [ZMOD n] := by
    rw [e]; push_cast; exact Int.mod_modEq _ _
  have k' : (c' : Int) ≡ (α * m + β : Int) ^ 3 [ZMOD n] := by
    rw [e', ← Nat.pow_mod]; push_cast; exact Int.mod_modEq _ _
  have l : (m : Int) * (α * (c' - α ^ 3 * c + 2 * β ^ 3)) ≡
      m * (α * ((α * m + β) ^ 3 - α ^ 3 * m ^ 3 + 2 * β ^ 3)) [ZMOD n] :=
    Int.ModEq.mul_left _ (Int.ModEq.mul_left _ (Int.ModEq.add_right _ (k'.sub (k.mul_left _))))
  have r : (β : Int) * (c' + 2 * α ^ 3 * c - β ^ 3) ≡ β * ((α * m + β) ^ 3 + 2 * α ^ 3 * m ^ 3 - β ^ 3) [ZMOD n] :=
    Int.ModEq.mul_left _ (Int.ModEq.sub_right _ (k'.add (k.mul_left _)))
  have key : (m : Int) * (α * ((α * m + β) ^ 3 - α ^ 3 * m ^ 3 + 2 * β ^ 3)) =
      β * ((α * m + β) ^ 3 + 2 * α ^ 3 * m ^ 3 - β ^ 3) := by ring
  exact l.trans (key ▸ r.symm)

/-- C152: so the messages are found whenever the coefficient has no common factor with the modulus. -/
theorem C152_related {cap : Nat → Nat} (hc : CapOk cap) (n m α β c c' : Nat) (hn : 2 ≤ n) (hsn : n.size ≤ 2 ^ 31 - 8)
    (hm : m < n) (h : encrypt cap ⟨big 3, big n⟩ (big m) = .ok (big c))
    (h' : encrypt cap ⟨big 3, big n⟩ (big ((α * m + β) % n)) = .ok (big c'))
    (hco : IsCoprime (α * (c' - α ^ 3 * c + 2 * β ^ 3) : Int) n) (x : Nat) (hx : x < n) :
    (x : Int) * (α * (c' - α ^ 3 * c + 2 * β ^ 3)) ≡ β * (c' + 2 * α ^ 3 * c - β ^ 3) [ZMOD n] ↔ x = m := by
  have hcong := C152_congruence hc n m α β c c' hn hsn hm h h'
  constructor
  · intro hxe
    have h1 := hxe.trans hcong.symm
    have h2 : (n : Int) ∣ ((m : Int) - x) * (α * (c' - α ^ 3 * c + 2 * β ^ 3)) := by
      rw [Int.sub_mul]; exact h1.dvd
    have h3 : (n : Int) ∣ (m : Int) - x := hco.symm.dvd_of_dvd_mul_right h2
    have h4 : (x : Int) ≡ m [ZMOD n] := Int.modEq_iff_dvd.2 h3
    have h5 := (Int.natCast_modEq_iff).1 h4
    rwa [Nat.ModEq, Nat.mod_eq_of_lt hx, Nat.mod_eq_of_lt hm] at h5
  · rintro rfl
    exact hcong

/-- C152: and otherwise a common factor other than the modulus itself is a factor of the modulus: one of its primes. -/
theorem C152_or_factor (p q : Nat) (hp : p.Prime) (hq : q.Prime) (D : Int) (h1 : ¬ IsCoprime D ((p * q : Nat) : Int))
    (h2 : ¬ ((p * q : Nat) : Int) ∣ D) : Int.gcd D (p * q : Nat) = p ∨ Int.gcd D (p * q : Nat) = q := by
  have hd : Int.gcd D (p * q : Nat) ∣ p * q := by
    have := Int.gcd_dvd_right D ((p * q : Nat) : Int)
    exact_mod_cast this
  have hne1 : Int.gcd D (p * q : Nat) ≠ 1 := fun h => h1 (Int.isCoprime_iff_gcd_eq_one.2 h)
  have hnen : Int.gcd D (p * q : Nat) ≠ p * q := fun h => h2 (by
    have := Int.gcd_dvd_left D ((p * q : Nat) : Int)
    rw [h] at this; exact this)
  generalize Int.gcd D (p * q : Nat) = g at *
  obtain ⟨k, hk⟩ := hd
  rcases (Nat.Prime.dvd_mul hp).1 (⟨q, hk.symm⟩ : p ∣ g * k) with ⟨j, rfl⟩ | ⟨j, rfl⟩
  · have : q = j * k := Nat.eq_of_mul_eq_mul_left hp.pos (by rw [hk]; ring)
    rcases hq.eq_one_or_self_of_dvd j ⟨k, this⟩ with rfl | rfl
    · left; omega
    · exact absurd rfl hnen
  · have : q = g * j := Nat.eq_of_mul_eq_mul_left hp.pos (by rw [hk]; ring)
    rcases hq.eq_one_or_self_of_dvd g ⟨j, this⟩ with h | h
    · exact absurd h hne1
    · right; exact h

/-- Not vacuous: the modulus 17 · 23 and the messages 100 and 101. -/
example : encrypt exactCap ⟨big 3, big 391⟩ (big 100) = .ok (big 213) ∧
    encrypt exactCap ⟨big 3, big 391⟩ (big ((1 * 100 + 1) % 391)) = .ok (big 16) ∧
    IsCoprime ((1 : Nat) * ((16 : Nat) - (1 : Nat) ^ 3 * (213 : Nat) + 2 * (1 : Nat) ^ 3) : Int) (391 : Nat) := by
  refine ⟨by decide +kernel, by decide +kernel, ?_⟩
  rw [Int.isCoprime_iff_gcd_eq_one]
  decide +kernel

end Verif.Props
