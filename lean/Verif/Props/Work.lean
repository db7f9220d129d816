import Verif.Proof.Work
import Verif.Props.Rsa

/-! # C125: the work of RSA, and what it reveals about the private key

`Model.Work` repeats the loops of RSA and counts calls of `mul_mod` (`muls`), calls of `%=` (`rems`) and rounds of the loop
of `%=` (`steps`). -/

namespace Verif.Props
open Verif Verif.Model.Big Verif.Model.Rsa Verif.Spec.Big
open _root_.Verif.Model.Work (W Count erase encryptW decryptW inverseLoopW)

/-- C125: counting changes nothing: without the counts the results are those of `encrypt` and `decrypt`, for all arguments,
panics included. -/
theorem C125_same (cap : Nat → Nat) (k : RsaEncryption) (x : BigUint) :
    erase (encryptW cap k x) = encrypt cap k x ∧ erase (decryptW cap k x) = decrypt cap k x :=
  ⟨Model.Work.erase_powModW _ _ _ _, Model.Work.erase_powModW _ _ _ _⟩

/-- C125: a decryption makes exactly one modular multiplication for each binary digit of the private exponent and a second
one for each digit 1, whatever the ciphertext and the modulus. -/
theorem C125_multiplications {cap : Nat → Nat} (hc : CapOk cap) (d n x : Nat) (hn : 2 ≤ n) (hsn : n.size ≤ 2 ^ 31 - 8)
    (hsx : x.size ≤ 2 ^ 31 - 8) (hsd : d.size ≤ 2 ^ 32 - 8) :
    ∃ c, decryptW cap ⟨big d, big n⟩ (big x) = .ok (big (x ^ d % n), c) ∧ c.muls = d.size + (Nat.digits 2 d).sum := by
  obtain ⟨c, h, h1, _⟩ := Model.Work.powModW_count hc x d n hn hsn hsx hsd
  exact ⟨c, h, h1⟩

/-- C125: so the number of multiplications of one decryption tells how many digits 1 the private exponent has, to anybody
who knows its length. -/
theorem C125_weight_leak {cap : Nat → Nat} (hc : CapOk cap) (d d' n n' x x' : Nat) (hn : 2 ≤ n) (hn' : 2 ≤ n')
    (hsn : n.size ≤ 2 ^ 31 - 8) (hsn' : n'.size ≤ 2 ^ 31 - 8) (hsx : x.size ≤ 2 ^ 31 - 8) (hsx' : x'.size ≤ 2 ^ 31 - 8)
    (hsd : d.size ≤ 2 ^ 32 - 8) (hdd : d.size = d'.size) :
    ∃ y y' c c', decryptW cap ⟨big d, big n⟩ (big x) = .ok (y, c) ∧ decryptW cap ⟨big d', big n'⟩ (big x') = .ok (y', c') ∧
      (c.muls = c'.muls ↔ (Nat.digits 2 d).sum = (Nat.digits 2 d').sum) := by
  obtain ⟨c, h, h1⟩ := C125_multiplications hc d n x hn hsn hsx hsd
  obtain ⟨c', h', h1'⟩ := C125_multiplications hc d' n' x' hn' hsn' hsx' (by omega)
  exact ⟨_, _, c, c', h, h', by omega⟩

/-- The binary digits of `v` and its digits 1, counted together. -/
def digitsAndOnes (v : Nat) : Nat := (Nat.digits 2 v).length + (Nat.digits 2 v).sum

/-- C125: the number of calls of `%=` in a decryption is a sum over the digits of the private exponent; digit `j` decides
whether a quantity that everybody can compute from the ciphertext and the modulus is added once or twice. -/
theorem C125_remainders {cap : Nat → Nat} (hc : CapOk cap) (d n x : Nat) (hn : 2 ≤ n) (hsn : n.size ≤ 2 ^ 31 - 8)
    (hx : x < n) (hsd : d.size ≤ 2 ^ 32 - 8) :
    ∃ c, decryptW cap ⟨big d, big n⟩ (big x) = .ok (big (x ^ d % n), c) ∧
      c.rems = ∑ j ∈ Finset.range d.size, (if d.testBit j then 2 else 1) * digitsAndOnes (x ^ 2 ^ j % n) := by
  obtain ⟨c, h, _, _, h3, _⟩ := Model.Work.powModW_count hc x d n hn hsn (Nat.le_trans (Nat.size_le_size hx.le) hsn) hsd
  refine ⟨c, h, ?_⟩
  rw [h3 hx]
  refine Finset.sum_congr rfl fun j _ => ?_
  have hc : Model.Work.roundCost (x ^ 2 ^ j % n) = digitsAndOnes (x ^ 2 ^ j % n) := by
    unfold Model.Work.roundCost digitsAndOnes
    rw [← Nat.size_eq_bits_len, ← List.length_map (f := fun b : Bool => cond b 1 0), ← Nat.digits_two_eq_bits]
  rw [hc]
  congr 1
  rw [Nat.testBit_eq_decide_div_mod_eq]
  have : d / 2 ^ j % 2 = 0 ∨ d / 2 ^ j % 2 = 1 := by omega
  rcases this with h | h <;> simp [h]

/-- C125: an operation on a number below the modulus takes at most twice as many multiplications as the exponent has digits,
and altogether at most eight times the product of the lengths in bits of exponent and modulus rounds of the division loop. -/
theorem C125_bound {cap : Nat → Nat} (hc : CapOk cap) (e n x : Nat) (hn : 2 ≤ n) (hsn : n.size ≤ 2 ^ 31 - 8)
    (hx : x < n) (hse : e.size ≤ 2 ^ 32 - 8) :
    ∃ c, encryptW cap ⟨big e, big n⟩ (big x) = .ok (big (x ^ e % n), c) ∧ c.muls ≤ 2 * e.size ∧
      c.rems ≤ 4 * (e.size * n.size) ∧ c.steps ≤ 8 * (e.size * n.size) := by
  obtain ⟨c, h, h1, h2, _, h4⟩ :=
    Model.Work.powModW_count hc x e n hn hsn (Nat.le_trans (Nat.size_le_size hx.le) hsn) hse
  have hs := Nat.size_le_size hx.le
  have ho := Model.Work.ones_le_size e
  have hd : x.size - n.size = 0 := by omega
  rw [hd] at h2 h4
  have hm : c.muls ≤ 2 * e.size := by omega
  have h5 : 2 * n.size * c.muls ≤ 2 * n.size * (2 * e.size) := Nat.mul_le_mul_left _ hm
  have h6 : 2 * n.size * (2 * e.size) = 4 * (e.size * n.size) := by ring
  exact ⟨c, h, hm, by omega, by omega⟩

/-- C125: the loop that `create_keys` uses to find the private exponent takes at most 186 rounds. In general the Fibonacci
number of the number of rounds is at most the exponent. -/
theorem C125_key_rounds (e l : Nat) (he : e < 2 ^ 128) (hl0 : 0 < l) (hl : l < 2 ^ 127) :
    ∃ r k, inverseLoopW (e + 1) l e 0 1 = .ok (r, k) ∧ inverseLoop (e + 1) l e 0 1 = .ok r ∧ Nat.fib k ≤ e ∧ k ≤ 186 := by
  obtain ⟨t', h1, _⟩ := inverseLoop_ok l e hl (e + 1) l e 0 1 (by omega) hl0 (by omega) he (by simp)
    (Or.inl ⟨by omega, by omega⟩) (by simp) (by simp) (by simp)
  have h2 := Model.Work.inverseLoopW_erase (e + 1) l e 0 1
  rw [h1] at h2
  rcases h3 : inverseLoopW (e + 1) l e 0 1 with err | ⟨r, k⟩
  · rw [h3] at h2; cases h2
  · rw [h3] at h2
    cases h2
    have hf := Model.Work.inverseLoopW_rounds h3
    refine ⟨_, k, rfl, h1, hf, ?_⟩
    by_contra hk
    have h4 : Nat.fib 187 ≤ Nat.fib k := Nat.fib_mono (by omega)
    have h5 : 2 ^ 128 ≤ Nat.fib 187 := by decide +kernel
    omega

/-- A decryption by a private exponent with seven digits, five of them 1, run by the kernel: 12 multiplications. -/
example : (decryptW exactCap ⟨big 103, big 143⟩ (big 5)).toOption.map (fun r => (val r.1, r.2)) =
    some (5 ^ 103 % 143, ⟨12, 100, 51⟩) := by decide +kernel
example : ∃ c, decryptW exactCap ⟨big 103, big 143⟩ (big 5) = .ok (big (5 ^ 103 % 143), c) ∧ c.muls = 12 := by
  obtain ⟨c, h, h1⟩ := C125_multiplications exactCap_ok 103 143 5 (by decide) (by decide +kernel) (by decide +kernel)
    (by decide +kernel)
  exact ⟨c, h, h1.trans (by decide +kernel)⟩
/-- The other exponent of the same length in C125_weight_leak. -/
example : (103 : Nat).size = (64 : Nat).size ∧ (Nat.digits 2 103).sum ≠ (Nat.digits 2 64).sum := by decide +kernel
example : ∃ c, decryptW exactCap ⟨big 103, big 143⟩ (big 5) = .ok (big (5 ^ 103 % 143), c) ∧
    c.rems = ∑ j ∈ Finset.range (103 : Nat).size, (if (103 : Nat).testBit j then 2 else 1) * digitsAndOnes (5 ^ 2 ^ j % 143) :=
  C125_remainders exactCap_ok 103 143 5 (by decide) (by decide +kernel) (by decide) (by decide +kernel)
example : ∃ c, encryptW exactCap ⟨big 7, big 143⟩ (big 5) = .ok (big (5 ^ 7 % 143), c) ∧ c.muls ≤ 2 * (7 : Nat).size ∧
    c.rems ≤ 4 * ((7 : Nat).size * (143 : Nat).size) ∧ c.steps ≤ 8 * ((7 : Nat).size * (143 : Nat).size) :=
  C125_bound exactCap_ok 7 143 5 (by decide) (by decide +kernel) (by decide) (by decide +kernel)
/-- Neighbouring Fibonacci numbers reach the bound on the rounds: 10 rounds, and `fib 11 = 89`. -/
example : inverseLoopW 90 144 89 0 1 = .ok ((1, -55), 10) ∧ Nat.fib 10 ≤ 89 := by decide +kernel
example := C125_key_rounds 89 144 (by decide) (by decide) (by decide)

end Verif.Props
