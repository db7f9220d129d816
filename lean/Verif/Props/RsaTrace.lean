import Verif.Model.RsaTrace
import Verif.Props.Work

/-! # C137: the order of the multiplications of a decryption is the private exponent -/

namespace Verif.Props
open Verif Verif.Model.Big Verif.Model.Rsa Verif.Spec.Big
open _root_.Verif.Model.RsaTrace (Op powModLoopT powModT)
open _root_.Verif.Model (RsaTrace.decryptT)

theorem powModLoopT_fst (cap : Nat → Nat) (p m : BigUint) (k i : Nat) (r a : BigUint) (ops : List Op) :
    (powModLoopT cap p m k i r a ops).map Prod.fst = powModLoop cap p m k i r a := by
  induction k generalizing i r a ops with
  | zero => rfl
  | succ k ih =>
    unfold powModLoopT powModLoop
    simp only [bind, Except.bind]
    rcases isSet p i with e | s
    · rfl
    · rcases s
      · simp only [Bool.false_eq_true, if_false]
        rcases mulMod cap a a m with e | a'
        · rfl
        · exact ih _ _ _ _
      · simp only [if_true]
        rcases mulMod cap r a m with e | r'
        · rfl
        · simp only
          rcases mulMod cap a a m with e | a'
          · rfl
          · exact ih _ _ _ _

/-- C137: the record changes nothing: without it the result is that of `decrypt`, panics included. -/
theorem C137_same (cap : Nat → Nat) (k : RsaEncryption) (c : BigUint) :
    (RsaTrace.decryptT cap k c).map Prod.fst = decrypt cap k c := by
  unfold RsaTrace.decryptT powModT decrypt powMod
  simp only [bind, Except.bind]
  rcases bitsUsed k.exponent with e | n
  · rfl
  · simp only
    rcases fromU128 1#128 with e | one
    · rfl
    · exact powModLoopT_fst _ _ _ _ _ _ _ _

/-- Square and multiply, lowest digit first: the calls for the `k` binary digits of `d` from digit `i` on. -/
def callsFor (d i k : Nat) : List Op :=
  (List.range' i k).flatMap fun j => if d.testBit j then [.multiply, .square] else [.square]

theorem powModLoopT_ops (cap : Nat → Nat) (d : Nat) (hl : (big d).bytes.length < 2 ^ 29) (m : BigUint) (k i : Nat)
    (r a : BigUint) (ops : List Op) (x : BigUint) (out : List Op)
    (h : powModLoopT cap (big d) m k i r a ops = .ok (x, out)) : out = ops ++ callsFor d i k := by
  induction k generalizing i r a ops with
  | zero => cases h; simp [callsFor]
  | succ k ih =>
    have hc : callsFor d i (k + 1) = (if d.testBit i then [.multiply, .square] else [.square]) ++ callsFor d (i + 1) k := by
      simp [callsFor, List.range'_succ]
    unfold powModLoopT at h
    simp only [bind, Except.bind, isSet_norm (norm_big d) hl, val_big] at h
    rw [hc]
    rcases hb : d.testBit i
    · rw [hb] at h
      simp only [Bool.false_eq_true, if_false] at h ⊢
      rcases ha : mulMod cap a a m with e | a'
      · rw [ha] at h; cases h
      · rw [ha] at h
        rw [ih _ _ _ _ h, List.append_assoc]
    · rw [hb] at h
      simp only [if_true] at h ⊢
      rcases hr : mulMod cap r a m with e | r'
      · rw [hr] at h; cases h
      · rw [hr] at h
        simp only at h
        rcases ha : mulMod cap a a m with e | a'
        · rw [ha] at h; cases h
        · rw [ha] at h
          rw [ih _ _ _ _ h]
          simp

/-- C137: whenever a decryption returns, its calls are those of square and multiply for the digits of the private exponent,
whatever the ciphertext and the modulus (numbers or not, invertible or not). -/
theorem C137_calls (cap : Nat → Nat) (d : Nat) (hd : d.size ≤ 2 ^ 32 - 8) (n c x : BigUint) (ops : List Op)
    (h : RsaTrace.decryptT cap ⟨big d, n⟩ c = .ok (x, ops)) :
    ops = (List.range d.size).flatMap fun j => if d.testBit j then [.multiply, .square] else [.square] := by
  have hl : (big d).bytes.length < 2 ^ 29 := by rw [length_big]; omega
  unfold RsaTrace.decryptT powModT at h
  simp only [bind, Except.bind, bitsUsed_norm (norm_big d) hl, val_big, fromU128_eq] at h
  rw [powModLoopT_ops cap d hl n _ _ _ _ _ x ops h, List.nil_append, callsFor, List.range_eq_range']

/-- The exponent that someone reads off the calls: before each squaring there is a multiplication if the digit is 1. -/
def exponentOf : List Op → Nat
  | [] => 0
  | .square :: ops => 2 * exponentOf ops
  | .multiply :: ops => 1 + exponentOf ops

theorem exponentOf_calls (d i k : Nat) :
    exponentOf ((List.range' i k).flatMap fun j => if d.testBit j then [.multiply, .square] else [.square]) =
      d / 2 ^ i % 2 ^ k := by
  induction k generalizing i with
  | zero => simp [exponentOf, Nat.mod_one]
  | succ k ih =>
    have hex : d / 2 ^ i % 2 ^ (k + 1) = 2 * (d / 2 ^ (i + 1) % 2 ^ k) + d / 2 ^ i % 2 := by
      rw [Nat.pow_succ', Nat.mod_mul, Nat.div_div_eq_div_mul, ← Nat.pow_succ, Nat.add_comm, Nat.succ_eq_add_one]
    rw [List.range'_succ, List.flatMap_cons, hex]
    have hbit : d.testBit i = decide (d / 2 ^ i % 2 = 1) := Nat.testBit_eq_decide_div_mod_eq
    have hlt : d / 2 ^ i % 2 < 2 := Nat.mod_lt _ (by omega)
    by_cases hb : d / 2 ^ i % 2 = 1
    · rw [hbit, hb]
      simp only [decide_true, if_true, List.cons_append, List.nil_append, exponentOf, ih]
      omega
    · rw [hbit]
      simp only [hb, decide_false, Bool.false_eq_true, if_false, List.cons_append, List.nil_append, exponentOf, ih]
      omega

/-- C137: so the order of the calls in a single decryption, of anything, is the private exponent. -/
theorem C137_exponent (cap : Nat → Nat) (d : Nat) (hd : d.size ≤ 2 ^ 32 - 8) (n c x : BigUint) (ops : List Op)
    (h : RsaTrace.decryptT cap ⟨big d, n⟩ c = .ok (x, ops)) : exponentOf ops = d := by
  rw [C137_calls cap d hd n c x ops h, List.range_eq_range', exponentOf_calls, Nat.pow_zero, Nat.div_one,
    Nat.mod_eq_of_lt (Nat.lt_size_self d)]

/-- C137: the decryption of every number with every modulus of at least 2, within the size limits, has such a record. -/
theorem C137_happens {cap : Nat → Nat} (hc : CapOk cap) (d n c : Nat) (hn : 2 ≤ n) (hsn : n.size ≤ 2 ^ 31 - 8)
    (hsc : c.size ≤ 2 ^ 31 - 8) (hd : d.size ≤ 2 ^ 32 - 8) :
    ∃ ops, RsaTrace.decryptT cap ⟨big d, big n⟩ (big c) = .ok (big (c ^ d % n), ops) ∧ exponentOf ops = d := by
  have h := C137_same cap ⟨big d, big n⟩ (big c)
  have h2 : decrypt cap ⟨big d, big n⟩ (big c) = .ok (big (c ^ d % n)) := powMod_ok hc c d n hn hsn hsc hd
  rw [h2] at h
  rcases hT : RsaTrace.decryptT cap ⟨big d, big n⟩ (big c) with e | ⟨x, ops⟩
  · rw [hT] at h; cases h
  · rw [hT] at h
    cases h
    exact ⟨ops, rfl, C137_exponent cap d hd _ _ _ ops hT⟩

/-- C137: and it is the same for all ciphertexts. -/
theorem C137_constant (cap : Nat → Nat) (d : Nat) (hd : d.size ≤ 2 ^ 32 - 8) (n n' c c' x x' : BigUint) (ops ops' : List Op)
    (h : RsaTrace.decryptT cap ⟨big d, n⟩ c = .ok (x, ops)) (h' : RsaTrace.decryptT cap ⟨big d, n'⟩ c' = .ok (x', ops')) :
    ops = ops' := by
  rw [C137_calls cap d hd n c x ops h, C137_calls cap d hd n' c' x' ops' h']

/-- The exponent 11 = 1011 in binary. -/
example : (RsaTrace.decryptT exactCap ⟨big 11, big 35⟩ (big 2)).toOption.map (fun r => (val r.1, r.2, exponentOf r.2)) =
    some (18, [.multiply, .square, .multiply, .square, .square, .multiply, .square], 11) := by decide +kernel
example : ∃ ops, RsaTrace.decryptT exactCap ⟨big 103, big 143⟩ (big 5) = .ok (big (5 ^ 103 % 143), ops) ∧
    exponentOf ops = 103 :=
  C137_happens exactCap_ok 103 143 5 (by decide) (by decide +kernel) (by decide +kernel) (by decide +kernel)
example : ∀ x x' ops ops', RsaTrace.decryptT exactCap ⟨big 103, big 143⟩ (big 5) = .ok (x, ops) →
    RsaTrace.decryptT exactCap ⟨big 103, big 143⟩ (big 77) = .ok (x', ops') → ops = ops' ∧ exponentOf ops = 103 :=
  fun x x' ops ops' h h' => ⟨C137_constant exactCap 103 (by decide +kernel) _ _ _ _ x x' ops ops' h h',
    C137_exponent exactCap 103 (by decide +kernel) _ _ x ops h⟩

end Verif.Props
