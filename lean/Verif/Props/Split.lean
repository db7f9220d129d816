import Verif.Spec.Split
import Verif.Props.RsaExact

/-! # C163: short numbers are found from a table of ciphertexts -/

namespace Verif.Props
open Verif Verif.Model.Big Verif.Model.Rsa Verif.Spec.Big
open _root_.Verif.Spec.Split (search positions)

/-- C163: a table of the ciphertexts of the numbers up to `k`, which depends on the public key only, is enough to find every
number `a b` with `a, b ≤ k` from its ciphertext, if `k²` is below the modulus. -/
theorem C163_split {cap : Nat → Nat} (hc : CapOk cap) (p q e d : Nat) (key : KeyPair p q e d) (k : Nat)
    (hk : k * k < p * q) (table : List Nat) (hlen : table.length = k)
    (ht : ∀ i (hi : i < table.length), encrypt cap ⟨big e, big (p * q)⟩ (big (i + 1)) = .ok (big table[i]))
    (a b c : Nat) (ha : 1 ≤ a) (ha' : a ≤ k) (hb : 1 ≤ b) (hb' : b ≤ k)
    (hct : encrypt cap ⟨big e, big (p * q)⟩ (big (a * b)) = .ok (big c)) :
    search (p * q) table c = some (a * b) := by
  have hn : 2 ≤ p * q := Nat.le_trans key.p_prime.two_le (Nat.le_mul_of_pos_right p key.q_prime.pos)
  have hs : ∀ z, z < p * q → z.size ≤ 2 ^ 31 - 8 := fun z hz => Nat.le_trans (Nat.size_le_size hz.le) key.modulus_size
  have henc : ∀ x y, x < p * q → encrypt cap ⟨big e, big (p * q)⟩ (big x) = .ok (big y) → y = x ^ e % (p * q) := by
    intro x y hx h
    rw [(C50_encrypt hc x e (p * q) hn key.modulus_size (hs x hx) key.e_size).1] at h
    have h := congrArg val (Except.ok.inj h)
    rw [Model.Big.val_big, Model.Big.val_big] at h
    exact h.symm
  have hsmall : ∀ x y, x ≤ k → y ≤ k → x * y < p * q := fun x y hx hy => Nat.lt_of_le_of_lt (Nat.mul_le_mul hx hy) hk
  have hone : ∀ x, 1 ≤ x → x ≤ k → x < p * q := fun x h1 h2 => by
    have := hsmall x x h2 h2
    exact Nat.lt_of_le_of_lt (Nat.le_mul_of_pos_right x (by omega)) this
  have htab : ∀ i, i < k → table.getD i 0 = (i + 1) ^ e % (p * q) := by
    intro i hi
    have h1 : i < table.length := by omega
    rw [List.getD_eq_getElem _ _ h1]
    exact henc _ _ (hone _ (by omega) (by omega)) (ht i h1)
  have hprod : ∀ i j, i < k → j < k → table.getD i 0 * table.getD j 0 % (p * q) = ((i + 1) * (j + 1)) ^ e % (p * q) := by
    intro i j hi hj
    rw [htab i hi, htab j hj, ← Nat.mul_mod, ← Nat.mul_pow]
  have hc' := henc _ _ (hsmall a b ha' hb') hct
  have hcm : c % (p * q) = (a * b) ^ e % (p * q) := by rw [hc', Nat.mod_mod]
  have hmem : ∀ i j, (i, j) ∈ positions table ↔ i < k ∧ j < k := by
    intro i j
    simp [positions, hlen]
  unfold search
  cases hf : (positions table).find? fun ij => table.getD ij.1 0 * table.getD ij.2 0 % (p * q) == c % (p * q) with
  | none =>
    rw [List.find?_eq_none] at hf
    have := hf (a - 1, b - 1) ((hmem _ _).2 ⟨by omega, by omega⟩)
    simp only [beq_iff_eq] at this
    rw [hprod _ _ (by omega) (by omega), hcm, Nat.sub_add_cancel ha, Nat.sub_add_cancel hb] at this
    exact absurd rfl this
  | some ij =>
    obtain ⟨i, j⟩ := ij
    have h1 := List.find?_some hf
    obtain ⟨hi, hj⟩ := (hmem i j).1 (List.mem_of_find?_eq_some hf)
    simp only [beq_iff_eq] at h1
    rw [hprod i j hi hj, hcm] at h1
    have h2 : (((i + 1) * (j + 1)) ^ e % (p * q)) ^ d % (p * q) = ((a * b) ^ e % (p * q)) ^ d % (p * q) := by rw [h1]
    rw [← Nat.pow_mod, ← Nat.pow_mod, ← Nat.pow_mul, ← Nat.pow_mul,
      Model.Rsa.rsa_correct p q e d _ key.p_prime key.q_prime key.distinct key.inverse (hsmall _ _ (by omega) (by omega)),
      Model.Rsa.rsa_correct p q e d _ key.p_prime key.q_prime key.distinct key.inverse (hsmall _ _ ha' hb')] at h2
    exact congrArg some h2

/-- C163: that table exists for every key pair: it can be made with `k` encryptions. -/
theorem C163_table {cap : Nat → Nat} (hc : CapOk cap) (p q e d : Nat) (key : KeyPair p q e d) (k : Nat) (hk : k < p * q) :
    ∃ table : List Nat, table.length = k ∧
      ∀ i (hi : i < table.length), encrypt cap ⟨big e, big (p * q)⟩ (big (i + 1)) = .ok (big table[i]) := by
  have hn : 2 ≤ p * q := Nat.le_trans key.p_prime.two_le (Nat.le_mul_of_pos_right p key.q_prime.pos)
  refine ⟨(List.range k).map fun i => (i + 1) ^ e % (p * q), by simp, fun i hi => ?_⟩
  rw [List.length_map, List.length_range] at hi
  rw [List.getElem_map, List.getElem_range]
  exact (C50_encrypt hc (i + 1) e (p * q) hn key.modulus_size
    (Nat.le_trans (Nat.size_le_size (by omega)) key.modulus_size) key.e_size).1

/-- The key pair of the other examples, a table of 1000 ciphertexts and the number 999 · 998. -/
example {cap : Nat → Nat} (hc : CapOk cap) (c : Nat)
    (hct : encrypt cap ⟨big 13, big ((2 ^ 521 - 1) * (2 ^ 127 - 1))⟩ (big (999 * 998)) = .ok (big c)) :
    ∃ table : List Nat, table.length = 1000 ∧ search ((2 ^ 521 - 1) * (2 ^ 127 - 1)) table c = some (999 * 998) := by
  have h20 : 2 ^ 20 ≤ (2 ^ 521 - 1) * (2 ^ 127 - 1) := by
    have h3 : 2 ^ 20 ≤ 2 ^ 521 - 1 := Nat.le_sub_one_of_lt (Nat.pow_lt_pow_right (by decide) (by decide))
    exact Nat.le_trans h3 (Nat.le_mul_of_pos_right _ (by decide))
  obtain ⟨table, h1, h2⟩ := C163_table hc _ _ _ _ example_key 1000 (by omega)
  exact ⟨table, h1, C163_split hc _ _ _ _ example_key 1000 (by omega) table h1 h2 999 998 c (by decide) (by decide)
    (by decide) (by decide) hct⟩

/-- With the textbook key 3233 = 61 · 53, e = 17: the table of the ciphertexts of 1 … 10 finds 63 = 7 · 9. -/
example : search 3233 ((List.range 10).map fun i => (i + 1) ^ 17 % 3233) (63 ^ 17 % 3233) = some 63 := by decide +kernel

end Verif.Props
