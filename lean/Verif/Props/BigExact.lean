import Verif.Proof.BigExact
import Verif.Props.Big
import Verif.Props.Block

/-! # C79–C83: what happens where the textbook property fails

C06, C42, C43, C45 and C46 are false of the code. Here is what the code does instead, for every input. -/

namespace Verif.Props
open Verif Verif.Model.Big Verif.Spec.Big

/-! ## C79 -/

/-- C79: `unpad` looks at the last byte only: it accepts every block whose last byte is at most the block size and removes
that many bytes; otherwise it panics. A block of size 0 panics. -/
theorem C79_unpad {N : Nat} (front : List U8) (last : U8) (block : Vector U8 N) (h : block.toList = front ++ [last]) :
    Model.Pad.pkcsUnpad N block = if last.toNat ≤ N then .ok (N - last.toNat) else .error .explicit := by
  have hlen := congrArg List.length h
  simp at hlen
  have hN : 1 ≤ N := by omega
  rw [Model.Pad.pkcsUnpad_of_last hN]
  have e : block[N - 1] = last := by
    have : block.toList[N - 1]? = some last := by
      rw [h, List.getElem?_append_right (by omega)]
      have : N - 1 - front.length = 0 := by omega
      simp [this]
    rw [List.getElem?_eq_getElem (by simp; omega)] at this
    simpa using this
  rw [e]
  by_cases hl : last.toNat ≤ N
  · rw [if_neg (by omega), if_pos hl]
  · rw [if_pos (by omega), if_neg hl]

theorem C79_unpad_empty (block : Vector U8 0) : ∃ e, Model.Pad.pkcsUnpad 0 block = .error e := by
  have : block = #v[] := by apply Vector.ext; intro i hi; omega
  subst this
  exact ⟨_, rfl⟩

example : (#v[9, 9, 9, 2] : Vector U8 4).toList = [9, 9, 9] ++ [2] ∧
    Model.Pad.pkcsUnpad 4 #v[9, 9, 9, 2] = .ok 2 ∧ Model.Pad.pkcsUnpad 4 #v[4, 4, 4, 5] = .error .explicit := by
  decide +kernel

/-! ## C80 -/

/-- C80: subtraction for all operands: exact when the difference is natural; otherwise it wraps around modulo
2^(bit length of the minuend) if the subtrahend fits the capacity of the temporary vector, and panics if not. -/
theorem C80_sub {cap : Nat → Nat} (hc : CapOk cap) (a b : Nat) (ha : a.size ≤ 2 ^ 31) :
    (b ≤ a → sub cap (big a) (big b) = .ok (big (a - b))) ∧
    (a < b → b < 256 ^ cap ((a.size + 7) / 8 + 1) →
      sub cap (big a) (big b) = .ok (big (((a : Int) - b) % (2 : Int) ^ a.size).toNat)) ∧
    (256 ^ cap ((a.size + 7) / 8 + 1) ≤ b → sub cap (big a) (big b) = .error .overflow) := by
  have hl : (big a).bytes.length ≤ 2 ^ 28 := by have := bytes_of_bits (n := a) (k := 2 ^ 28) (by omega); omega
  have key := Model.Big.subAssign_eq (cap := cap) (a := a) (b := b) rfl hc hl
  have hlen := Model.Big.length_big a
  refine ⟨fun h => (C41_sub hc a b ha h).2, fun _ hb => ?_, fun hb => ?_⟩
  · have hb' : (big b).bytes.length ≤ cap ((big a).bytes.length + 1) := by
      rw [Model.Big.length_le_iff, hlen]; exact hb
    unfold sub
    rw [key, if_pos hb']
    have hs : a.size ≤ 8 * (big a).bytes.length := by have := Model.Big.size_val_le (big a); rwa [Model.Big.val_big] at this
    have hcap := (hc ((big a).bytes.length + 1) (by omega)).1
    obtain ⟨k, hk⟩ : ∃ k, 256 ^ cap ((big a).bytes.length + 1) = 2 ^ a.size * k := by
      rw [Model.Big.pow256]; exact Nat.pow_dvd_pow 2 (by omega)
    rw [← hlen] at hb
    apply congrArg Except.ok
    apply congrArg big
    rw [hk] at hb ⊢
    have e : ((2 ^ a.size * k + a - b : Nat) : Int) = (2 : Int) ^ a.size * k + ((a : Int) - b) := by
      rw [Nat.cast_sub (by omega)]; push_cast; ring
    have e2 : (((2 ^ a.size * k + a - b) % 2 ^ a.size : Nat) : Int) = ((a : Int) - b) % (2 : Int) ^ a.size := by
      rw [Int.natCast_mod, e]
      push_cast
      exact Int.mul_add_emod_self_left _ _ _
    rw [← e2]; rfl
  · unfold sub
    rw [key, if_neg]
    rw [Model.Big.length_le_iff, hlen]
    omega

/-- C80: so a wrapped result never has more bits than the minuend, and adding the subtrahend back gives the minuend modulo
that power of two. -/
theorem C80_wraps {cap : Nat → Nat} (hc : CapOk cap) (a b r : Nat) (ha : a.size ≤ 2 ^ 31)
    (h : sub cap (big a) (big b) = .ok (big r)) : r.size ≤ a.size ∧ (r + b) % 2 ^ a.size = a % 2 ^ a.size := by
  rcases Nat.lt_or_ge a b with hab | hab
  · have hu := C42_underflow_partial hc a b ha hab
    by_cases hb : (big b).bytes.length ≤ cap ((big a).bytes.length + 1)
    · obtain ⟨r', h1, h2, h3⟩ := hu.2 hb
      rw [h] at h1
      have e : r = r' := by
        have := congrArg val (Except.ok.inj h1)
        rwa [C35_val_big, C35_val_big] at this
      subst e
      exact ⟨Nat.size_le.2 h2, h3⟩
    · rw [hu.1 (by omega)] at h; cases h
  · rw [(C80_sub hc a b ha).1 hab] at h
    have e : a - b = r := by
      have := congrArg val (Except.ok.inj h)
      rwa [C35_val_big, C35_val_big] at this
    subst e
    exact ⟨Nat.size_le_size (by omega), by rw [Nat.sub_add_cancel hab]⟩

example : sub exactCap ⟨[5#8]⟩ ⟨[6#8]⟩ = .ok ⟨[7#8]⟩ ∧ ((5 : Int) - 6) % (2 : Int) ^ 3 = 7 ∧
    sub exactCap ⟨[1#8]⟩ ⟨[0#8, 0#8, 1#8]⟩ = .error .overflow := by decide

/-! ## C81 -/

/-- C81: left shifts in all cases. Zero shifted by `k` becomes `k / 8` zero bytes. -/
theorem C81_shl (n k : Nat) : shl (big n) k = if n = 0 then ⟨List.replicate (k / 8) 0#8⟩ else big (n * 2 ^ k) := by
  by_cases h : n = 0
  · subst h; rw [if_pos rfl]; exact Model.Big.shl_zero k
  · rw [if_neg h]; exact Model.Big.shl_big h k

/-- C81: right shifts in all cases: exact when fewer whole bytes are shifted out than are stored or just as many, otherwise
a panic. -/
theorem C81_shr (n k : Nat) : shr (big n) k =
    if k / 8 ≤ (n.size + 7) / 8 then .ok (big (n / 2 ^ k)) else .error .index := by
  by_cases h : k / 8 ≤ (n.size + 7) / 8
  · rw [if_pos h]; exact Model.Big.shr_big n k (by rw [Model.Big.length_big]; omega)
  · rw [if_neg h]; exact Model.Big.shr_panics n k (by rw [Model.Big.length_big]; omega)

/-- C81: shifting left and back is the identity, although the left shift of zero is not normalised. -/
theorem C81_shl_shr (n k : Nat) : shr (shl (big n) k) k = .ok (big n) := by
  by_cases h : n = 0
  · subst h
    have hb : big 0 = ⟨[]⟩ := by decide +kernel
    rw [C81_shl, if_pos rfl, hb]
    unfold shr
    by_cases h8 : k ≥ 8
    · by_cases hr : k - k / 8 * 8 > 0 <;>
        simp [h8, hr, bind, Except.bind, pure, Except.pure, shrLoop, trim]
    · have : k / 8 = 0 := by omega
      by_cases hr : k > 0 <;>
        simp [h8, hr, this, bind, Except.bind, pure, Except.pure, shrLoop, trim]
  rw [C81_shl, if_neg h, C81_shr, if_pos, Nat.mul_div_cancel _ (Nat.two_pow_pos k)]
  have : k < (n * 2 ^ k).size := by
    rw [Nat.lt_size]
    exact Nat.le_mul_of_pos_left _ (by omega)
  omega

example : shl ⟨[]⟩ 17 = ⟨[0#8, 0#8]⟩ ∧ shr ⟨[0x34#8, 0x12#8]⟩ 23 = .ok ⟨[]⟩ ∧
    shr ⟨[0x34#8, 0x12#8]⟩ 24 = .error .index ∧ shr (shl ⟨[5#8]⟩ 100) 100 = .ok ⟨[5#8]⟩ := by decide +kernel

/-! ## C82 -/

/-- C82: the remainder for all operands. By zero it is the number itself below 128 and a panic from 128 on. -/
theorem C82_rem {cap : Nat → Nat} (hc : CapOk cap) (a b : Nat) (ha : a.size ≤ 2 ^ 31) (hb : b.size ≤ 2 ^ 32 - 8) :
    rem cap (big a) (big b) =
      if 0 < b then .ok (big (a % b)) else if a < 128 then .ok (big a) else .error .ilogZero := by
  by_cases h : 0 < b
  · rw [if_pos h]; exact C44_rem hc a b ha hb h
  · have : b = 0 := by omega
    subst this
    rw [if_neg h]
    exact Model.Big.rem_zero hc a (by have := bytes_of_bits (n := a) (k := 2 ^ 28) (by omega); omega)

example : rem exactCap ⟨[127#8]⟩ ⟨[]⟩ = .ok ⟨[127#8]⟩ ∧ rem exactCap ⟨[128#8]⟩ ⟨[]⟩ = .error .ilogZero ∧
    rem exactCap ⟨[128#8]⟩ ⟨[7#8]⟩ = .ok ⟨[2#8]⟩ := by decide +kernel

/-! ## C83 -/

/-- C83: whatever sequence of constructors and operators builds a `BigUint` (`update` excepted), the only superfluous zero
bytes it can have are those of the number zero. -/
theorem C83_reachable {cap : Nat → Nat} {x : BigUint} (h : Built cap (fun _ _ => True) x) :
    Normalised x ∨ ∃ k, x.bytes = List.replicate (k + 1) 0#8 := by
  have aux : ∀ j, Normalised (Model.Big.zeros j) ∨ ∃ k, (Model.Big.zeros j).bytes = List.replicate (k + 1) 0#8 := by
    intro j
    cases j with
    | zero => left; unfold Normalised Model.Big.zeros; simp
    | succ j => right; exact ⟨j, rfl⟩
  induction h with
  | @be l x h => rw [Model.Big.fromBeBytes_eq] at h; cases h; exact Or.inl (Model.Big.norm_big _)
  | le => exact Or.inl (Model.Big.trim_norm _)
  | @u128 v x h => rw [Model.Big.fromU128_eq] at h; cases h; exact Or.inl (Model.Big.norm_big _)
  | addByte _ h _ => rw [Model.Big.addByte_eq] at h; cases h; exact Or.inl (Model.Big.norm_big _)
  | add _ _ h _ _ => rw [Model.Big.add_eq] at h; cases h; exact Or.inl (Model.Big.norm_big _)
  | sub _ _ h _ _ => exact Or.inl (Model.Big.subAssign_norm h)
  | @rem x y z _ _ h ih _ =>
    by_cases hx : Normalised x
    · exact Or.inl (Model.Big.rem_norm hx h)
    · exact absurd h (Model.Big.rem_not_norm_left' hx)
  | @shl x k _ _ ih =>
    rcases ih with ih | ⟨j, hj⟩
    · by_cases h0 : val x = 0
      · rw [Model.Big.norm_val_zero ih h0, Model.Big.shl_zeros]; exact aux _
      · exact Or.inl (Model.Big.shl_norm _ _ ih (Or.inl h0))
    · have : x = Model.Big.zeros (j + 1) := by cases x; simp at hj; subst hj; rfl
      rw [this, Model.Big.shl_zeros]; exact aux _
  | @shr x k z _ h ih =>
    rcases ih with ih | ⟨j, hj⟩
    · exact Or.inl (Model.Big.shr_norm ih h)
    · have : x = Model.Big.zeros (j + 1) := by cases x; simp at hj; subst hj; rfl
      rw [this, Model.Big.shr_zeros] at h
      split at h
      · cases h; exact aux _
      · cases h

/-- C83: hence all numbers other than zero that a program builds are normalised: equality is numeric equality … -/
theorem C83_nonzero {cap : Nat → Nat} {x : BigUint} (h : Built cap (fun _ _ => True) x) (hx : val x ≠ 0) :
    x = big (val x) := by
  rcases C83_reachable h with h | ⟨k, hk⟩
  · exact Model.Big.eq_big h
  · exact absurd (by unfold val; rw [hk]; exact Model.Big.leVal_zeros _) hx

/-- … but on a zero with superfluous bytes, as on every number with a superfluous zero byte, `bits_used`, `is_set`,
comparison (on either side), subtraction from it, remainder of it and by it panic, … -/
theorem C83_poisoned {cap : Nat → Nat} (x : BigUint) (h : ¬ Normalised x) (hl : x.bytes.length < 2 ^ 29) (n : Nat)
    (hn : n.size ≤ 2 ^ 32 - 8) :
    bitsUsed x = .error .ilogZero ∧ (∀ i, isSet x i = .error .ilogZero) ∧
    Model.Big.cmp x (big n) = .error .ilogZero ∧ Model.Big.cmp (big n) x = .error .ilogZero ∧
    sub cap x (big n) = .error .ilogZero ∧ rem cap x (big n) = .error .ilogZero ∧ rem cap (big n) x = .error .ilogZero := by
  have hn' : (big n).bytes.length < 2 ^ 29 := by have := bytes_of_bits (n := n) (k := 2 ^ 29 - 1) (by omega); omega
  exact ⟨Model.Big.bitsUsed_not_norm h hl, Model.Big.isSet_not_norm h hl, Model.Big.cmp_not_norm_left h hl _,
    Model.Big.cmp_not_norm_right h hl n hn', Model.Big.sub_not_norm_left h hl _, Model.Big.rem_not_norm_left h hl n hn',
    Model.Big.rem_not_norm_right h hl _⟩

/-- … while adding anything, even 0, repairs it. -/
theorem C83_add_repairs (x y : BigUint) (b : U8) : add x y = .ok (big (val x + val y)) ∧
    add y x = .ok (big (val x + val y)) ∧ addByte x b = .ok (big (val x + b.toNat)) :=
  ⟨C39_add x y, by rw [C39_add, Nat.add_comm], C39_add_byte x b⟩

example : ¬ Normalised ⟨[0#8]⟩ ∧ bitsUsed ⟨[0#8]⟩ = .error .ilogZero ∧ add ⟨[0#8]⟩ ⟨[]⟩ = .ok ⟨[]⟩ ∧
    Built exactCap (fun _ _ => True) ⟨[0#8, 0#8]⟩ := by
  refine ⟨by decide, by decide, by decide, ?_⟩
  exact Built.shl (x := ⟨[]⟩) (k := 17) (Built.be (l := []) rfl) trivial

/-- The theorems applied to this zero and to a number that is not zero. -/
example : (Normalised ⟨[0#8, 0#8]⟩ ∨ ∃ k, (⟨[0#8, 0#8]⟩ : BigUint).bytes = List.replicate (k + 1) 0#8) ∧
    (⟨[0#8, 2#8]⟩ : BigUint) = big (val ⟨[0#8, 2#8]⟩) :=
  ⟨C83_reachable (cap := exactCap) (Built.shl (x := ⟨[]⟩) (k := 17) (Built.be (l := []) rfl) trivial),
    C83_nonzero (cap := exactCap) (Built.shl (x := ⟨[1#8]⟩) (k := 9) (Built.be (l := [1#8]) (by decide)) trivial) (by decide)⟩

end Verif.Props
