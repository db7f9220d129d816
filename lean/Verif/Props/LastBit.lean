import Verif.Spec.LastBit
import Verif.Props.RsaAttacks
import Verif.Props.Manger

/-! # C157: the last bit of decryptions (S. Goldwasser, S. Micali, P. Tong) -/

namespace Verif.Props
open Verif Verif.Model.Big Verif.Model.Rsa Verif.Spec.Big
open _root_.Verif.Spec.LastBit (questions binary found)

theorem mapM_all_ok {α β : Type} (f : α → R β) (g : α → β) :
    ∀ l : List α, (∀ x ∈ l, f x = .ok (g x)) → l.mapM f = .ok (l.map g)
  | [], _ => rfl
  | x :: l, h => by
    rw [List.mapM_cons, h x (by simp), mapM_all_ok f g l (fun y hy => h y (by simp [hy]))]
    rfl

theorem binary_append (l : List Bool) (b : Bool) : binary (l ++ [b]) = 2 * binary l + b.toNat := by
  simp [binary]

/-- The remainder of the doubled number is odd exactly if the next binary digit of `m / n` is 1. -/
theorem next_digit (m n k : Nat) (hn : n % 2 = 1) :
    m * 2 ^ (k + 1) / n = 2 * (m * 2 ^ k / n) + (decide (m * 2 ^ (k + 1) % n % 2 = 1)).toNat := by
  have hpos : 0 < n := by omega
  have h0 := Nat.div_add_mod (m * 2 ^ k) n
  have h1 := Nat.div_add_mod (m * 2 ^ (k + 1)) n
  have hlt := Nat.mod_lt (m * 2 ^ k) hpos
  have hlt1 := Nat.mod_lt (m * 2 ^ (k + 1)) hpos
  set a := m * 2 ^ k / n
  set r := m * 2 ^ k % n
  set a' := m * 2 ^ (k + 1) / n
  set r' := m * 2 ^ (k + 1) % n
  have he : n * a' + r' = 2 * (n * a + r) := by rw [h1, h0, Nat.pow_succ]; ring
  have hle : 2 * a ≤ a' := by
    by_contra hlt'
    have : n * (a' + 1) ≤ n * (2 * a) := Nat.mul_le_mul_left n (by omega)
    have e1 : n * (a' + 1) = n * a' + n := by ring
    have e2 : n * (2 * a) = 2 * (n * a) := by ring
    omega
  have hle2 : a' ≤ 2 * a + 1 := by
    by_contra hlt'
    have : n * (2 * a + 2) ≤ n * a' := Nat.mul_le_mul_left n (by omega)
    have e1 : n * (2 * a + 2) = 2 * (n * a) + 2 * n := by ring
    omega
  obtain h | h : a' = 2 * a ∨ a' = 2 * a + 1 := by omega
  · have e1 : n * a' = 2 * (n * a) := by rw [h]; ring
    have : ¬ r' % 2 = 1 := by omega
    simp [h, this]
  · have e1 : n * a' = 2 * (n * a) + n := by rw [h]; ring
    have : r' % 2 = 1 := by omega
    simp [h, this]

theorem binary_digits (m n : Nat) (hn : n % 2 = 1) (hm : m < n) (t : Nat) :
    binary ((List.range t).map fun k => decide (m * 2 ^ (1 + k) % n % 2 = 1)) = m * 2 ^ t / n := by
  induction t with
  | zero => simp [binary, Nat.div_eq_of_lt hm]
  | succ t ih =>
    rw [List.range_succ, List.map_append, List.map_singleton, binary_append, ih, next_digit m n t hn, Nat.add_comm 1 t]

theorem found_digits (m n : Nat) (hm : m < n) (answers : List Bool) (hl : answers.length = n.size)
    (hb : binary answers = m * 2 ^ n.size / n) : found n answers = m := by
  unfold found
  rw [hl, hb]
  have hpos : 0 < n := by omega
  have hlt := Nat.mod_lt (m * 2 ^ n.size) hpos
  have h1 := Nat.div_add_mod (m * 2 ^ n.size) n
  have hsz := Nat.lt_size_self n
  have h2 : 0 < 2 ^ n.size := Nat.two_pow_pos _
  rw [Nat.mul_comm (m * 2 ^ n.size / n)]
  have h3 : m * 2 ^ n.size = 2 ^ n.size * m := Nat.mul_comm _ _
  apply Nat.div_eq_of_lt_le
  · omega
  · rw [Nat.add_mul, Nat.one_mul]
    omega

/-- C157: the last bit of the decryptions of as many numbers as the modulus has bits, all made from the ciphertext and the
public key before the first answer, is enough to find the message. -/
theorem C157_last_bit {cap : Nat → Nat} (hc : CapOk cap) (p q e d : Nat) (key : KeyPair p q e d) (hodd : p * q % 2 = 1)
    (m c : Nat) (hm : m < p * q) (hct : encrypt cap ⟨big e, big (p * q)⟩ (big m) = .ok (big c)) :
    ∃ answers : List Bool,
      (questions (p * q) e c 1).mapM (fun x => do isSet (← decrypt cap ⟨big d, big (p * q)⟩ (big x)) 0) = .ok answers ∧
      found (p * q) answers = m := by
  have hs : ∀ z, z < p * q → z.size ≤ 2 ^ 32 - 8 :=
    fun z hz => Nat.le_trans (Nat.size_le_size hz.le) (Nat.le_trans key.modulus_size (by decide))
  have hall := mapM_all_ok
    (fun k => (do isSet (← decrypt cap ⟨big d, big (p * q)⟩ (big (c * (2 ^ (1 + k)) ^ e % (p * q)))) 0 : R Bool))
    (fun k => decide (m * 2 ^ (1 + k) % (p * q) % 2 = 1)) (List.range (p * q).size) (by
      intro k _
      rw [C122_blinding hc p q e d key m (2 ^ (1 + k)) c hm hct]
      have := C37_is_set (m * 2 ^ (1 + k) % (p * q)) (hs _ (Nat.mod_lt _ (by omega))) 0
      rw [Nat.testBit_zero] at this
      exact this)
  refine ⟨_, ?_, found_digits m (p * q) hm _ ?_ (binary_digits m (p * q) hodd hm _)⟩
  · unfold questions
    rw [List.mapM_map]
    exact hall
  · simp

/-- C157: so is knowing of each whether the decrypted number is above half the modulus. -/
theorem C157_half {cap : Nat → Nat} (hc : CapOk cap) (p q e d : Nat) (key : KeyPair p q e d) (hodd : p * q % 2 = 1)
    (m c : Nat) (hm : m < p * q) (hct : encrypt cap ⟨big e, big (p * q)⟩ (big m) = .ok (big c)) :
    ∃ answers : List Bool,
      (questions (p * q) e c 0).mapM (fun x => do
        let y ← decrypt cap ⟨big d, big (p * q)⟩ (big x)
        return decide (p * q < 2 * val y)) = .ok answers ∧
      found (p * q) answers = m := by
  have hall := mapM_all_ok
    (fun k => (do
      let y ← decrypt cap ⟨big d, big (p * q)⟩ (big (c * (2 ^ (0 + k)) ^ e % (p * q)))
      return decide (p * q < 2 * val y) : R Bool))
    (fun k => decide (m * 2 ^ (1 + k) % (p * q) % 2 = 1)) (List.range (p * q).size) (by
      intro k _
      rw [C122_blinding hc p q e d key m (2 ^ (0 + k)) c hm hct]
      change Except.ok (decide (p * q < 2 * val (big (m * 2 ^ (0 + k) % (p * q))))) = _
      rw [Model.Big.val_big, Nat.zero_add]
      congr 1
      rw [decide_eq_decide]
      have hlt := Nat.mod_lt (m * 2 ^ k) (by omega : 0 < p * q)
      have e1 : m * 2 ^ (1 + k) % (p * q) = 2 * (m * 2 ^ k % (p * q)) % (p * q) := by
        rw [Nat.add_comm, Nat.pow_succ, ← Nat.mul_assoc, Nat.mul_comm _ 2, Nat.mul_mod_mod]
      rw [e1]
      generalize m * 2 ^ k % (p * q) = r at *
      generalize p * q = n at *
      by_cases h : 2 * r < n
      · rw [Nat.mod_eq_of_lt h]; omega
      · have e2 : 2 * r % n = 2 * r - n := by
          rw [Nat.mod_eq_sub_mod (by omega : n ≤ 2 * r), Nat.mod_eq_of_lt (by omega)]
        omega)
  refine ⟨_, ?_, found_digits m (p * q) hm _ ?_ (binary_digits m (p * q) hodd hm _)⟩
  · unfold questions
    rw [List.mapM_map]
    exact hall
  · simp

/-- Not vacuous: the key of `n = 3233` and the ciphertext 2790 of 65: twelve answers. -/
example : ∃ answers : List Bool,
    (questions (61 * 53) 17 2790 1).mapM (fun x => do isSet (← decrypt exactCap ⟨big 2753, big (61 * 53)⟩ (big x)) 0) =
      .ok answers ∧ found (61 * 53) answers = 65 :=
  C157_last_bit exactCap_ok 61 53 17 2753 textbook_key (by decide) 65 2790 (by decide) (by decide +kernel)
example : found (61 * 53) [false, false, false, false, false, true, false, true, false, false, true, false] = 65 := by decide

end Verif.Props
