import Verif.Proof.Space

/-! # C149: an RSA operation needs little memory -/

namespace Verif.Props
open Verif Verif.Model.Big Verif.Model.Rsa Verif.Spec.Big
open _root_.Verif.Model.Space (P encryptP decryptP erase)

/-- C149: the functions that record the longest number compute what `encrypt` and `decrypt` compute. -/
theorem C149_same (cap : Nat → Nat) (k : RsaEncryption) (x : BigUint) :
    erase (encryptP cap k x) = encrypt cap k x ∧ erase (decryptP cap k x) = decrypt cap k x :=
  ⟨Model.Space.erase_powModP _ _ _ _, Model.Space.erase_powModP _ _ _ _⟩

/-- The bytes needed to write down `n`. -/
def bytesOf (n : Nat) : Nat := (Nat.digits 256 n).length

theorem bytesOf_eq (n : Nat) : bytesOf n = (big n).bytes.length := by
  refine Nat.le_antisymm ?_ ?_
  · exact (Nat.digits_length_le_iff (by omega) n).2 (by have := val_lt (big n); rwa [val_big] at this)
  · exact length_le_iff.2 (Nat.lt_base_pow_length_digits (by omega))

/-- C149: in a decryption no vector is longer than the longer of ciphertext and modulus and three bytes, apart from what the
allocator adds to a request for that length; the exponent does not matter. -/
theorem C149_decrypt {cap : Nat → Nat} (hc : CapOk cap) (d n x : Nat) (hn : 2 ≤ n) (hsn : n.size ≤ 2 ^ 31 - 8)
    (hsx : x.size ≤ 2 ^ 31 - 8) (hsd : d.size ≤ 2 ^ 32 - 8) (extra : Nat)
    (hcap : ∀ k, k ≤ max (bytesOf n) (bytesOf x) + 2 → cap k ≤ max (bytesOf n) (bytesOf x) + 2 + extra) :
    ∃ peak, decryptP cap ⟨big d, big n⟩ (big x) = .ok (big (x ^ d % n), peak) ∧
      peak ≤ max (bytesOf n) (bytesOf x) + 3 + extra := by
  rw [bytesOf_eq, bytesOf_eq] at hcap ⊢
  have h1 : (big n).bytes.length < 2 ^ 28 := Fits.length hsn
  have h2 : (big x).bytes.length < 2 ^ 28 := Fits.length hsx
  exact Model.Space.powModP_ok hc x d n hn hsn hsx hsd (max (big n).bytes.length (big x).bytes.length) _
    (Nat.le_max_left _ _) (Nat.le_max_right _ _) (by omega) fun k hk => by have := hcap k (by omega); omega

/-- C149: an encryption likewise. -/
theorem C149_encrypt {cap : Nat → Nat} (hc : CapOk cap) (e n x : Nat) (hn : 2 ≤ n) (hsn : n.size ≤ 2 ^ 31 - 8)
    (hsx : x.size ≤ 2 ^ 31 - 8) (hse : e.size ≤ 2 ^ 32 - 8) (extra : Nat)
    (hcap : ∀ k, k ≤ max (bytesOf n) (bytesOf x) + 2 → cap k ≤ max (bytesOf n) (bytesOf x) + 2 + extra) :
    ∃ peak, encryptP cap ⟨big e, big n⟩ (big x) = .ok (big (x ^ e % n), peak) ∧
      peak ≤ max (bytesOf n) (bytesOf x) + 3 + extra :=
  C149_decrypt hc e n x hn hsn hsx hse extra hcap

/-- An allocator that gives what is asked for meets the hypotheses, with nothing extra. -/
example : CapOk id ∧ ∀ L k : Nat, k ≤ L + 2 → id k ≤ L + 2 + 0 :=
  ⟨fun n h => ⟨Nat.le_refl n, by simp only [id]; omega⟩, fun _ _ h => h⟩

/-- The bound is met exactly with the modulus 11 · 23 of one byte, and by one byte less with 61 · 53. -/
example : (decryptP id ⟨big 103, big 253⟩ (big 250)).toOption.map (fun r => (val r.1, r.2)) = some (149, 1 + 3) ∧
    (decryptP id ⟨big 413, big 3233⟩ (big 2790)).toOption.map (fun r => (val r.1, r.2)) = some (65, 2 + 2) := by
  decide +kernel

end Verif.Props
