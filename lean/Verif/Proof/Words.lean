import Verif.Basic

/-! # Lemmas about bytes and machine words -/

namespace Verif

theorem idx_ok {α : Type} {xs : List α} {i : Nat} (h : i < xs.length) : idx xs i = .ok xs[i] := by
  simp [idx, h]

theorem idx_error {α : Type} {xs : List α} {i : Nat} (h : xs.length ≤ i) : idx xs i = .error .index := by
  simp [idx, List.getElem?_eq_none h]

theorem toNat_append8 {n : Nat} (a : BitVec n) (b : U8) : (a ++ b).toNat = a.toNat * 256 + b.toNat := by
  rw [BitVec.toNat_append, ← Nat.shiftLeft_add_eq_or_of_lt b.isLt, Nat.shiftLeft_eq]

theorem leU32_toNat (b0 b1 b2 b3 : U8) : (leU32 b0 b1 b2 b3).toNat =
    b0.toNat + 256 * b1.toNat + 65536 * b2.toNat + 16777216 * b3.toNat := by
  unfold leU32
  simp only [toNat_append8]
  omega

theorem leU32_eq (b0 b1 b2 b3 : U8) : leU32 b0 b1 b2 b3 = BitVec.ofNat 32
    (b0.toNat + 256 * b1.toNat + 65536 * b2.toNat + 16777216 * b3.toNat) := by
  apply BitVec.eq_of_toNat_eq
  rw [leU32_toNat, BitVec.toNat_ofNat, Nat.mod_eq_of_lt]
  have := b0.isLt; have := b1.isLt; have := b2.isLt; have := b3.isLt
  omega

theorem beU32_toNat (b0 b1 b2 b3 : U8) : (beU32 b0 b1 b2 b3).toNat =
    16777216 * b0.toNat + 65536 * b1.toNat + 256 * b2.toNat + b3.toNat := by
  unfold beU32
  simp only [toNat_append8]
  omega

theorem leU16_toNat (b0 b1 : U8) : (leU16 b0 b1).toNat = b0.toNat + 256 * b1.toNat := by
  unfold leU16
  simp only [toNat_append8]
  omega

theorem leU16_extract (w : U16) : leU16 (w.extractLsb' 0 8) (w.extractLsb' 8 8) = w := by
  apply BitVec.eq_of_toNat_eq
  rw [leU16_toNat]
  simp only [BitVec.extractLsb'_toNat, Nat.shiftRight_eq_div_pow]
  have := w.isLt
  omega

theorem leU32_extract (w : U32) : leU32 (w.extractLsb' 0 8) (w.extractLsb' 8 8) (w.extractLsb' 16 8)
    (w.extractLsb' 24 8) = w := by
  apply BitVec.eq_of_toNat_eq
  rw [leU32_toNat]
  simp only [BitVec.extractLsb'_toNat, Nat.shiftRight_eq_div_pow]
  have := w.isLt
  omega

theorem extract_leU32 (b0 b1 b2 b3 : U8) :
    (leU32 b0 b1 b2 b3).extractLsb' 0 8 = b0 ∧ (leU32 b0 b1 b2 b3).extractLsb' 8 8 = b1 ∧
    (leU32 b0 b1 b2 b3).extractLsb' 16 8 = b2 ∧ (leU32 b0 b1 b2 b3).extractLsb' 24 8 = b3 := by
  have := b0.isLt; have := b1.isLt; have := b2.isLt; have := b3.isLt
  refine ⟨?_, ?_, ?_, ?_⟩ <;> apply BitVec.eq_of_toNat_eq <;>
    simp only [BitVec.extractLsb'_toNat, Nat.shiftRight_eq_div_pow, leU32_toNat] <;> omega

theorem extract_leU16 (b0 b1 : U8) :
    (leU16 b0 b1).extractLsb' 0 8 = b0 ∧ (leU16 b0 b1).extractLsb' 8 8 = b1 := by
  have := b0.isLt; have := b1.isLt
  refine ⟨?_, ?_⟩ <;> apply BitVec.eq_of_toNat_eq <;>
    simp only [BitVec.extractLsb'_toNat, Nat.shiftRight_eq_div_pow, leU16_toNat] <;> omega

theorem natToLE4 (n : Nat) : natToLE 4 n =
    [BitVec.ofNat 8 n, BitVec.ofNat 8 (n / 256), BitVec.ofNat 8 (n / 65536), BitVec.ofNat 8 (n / 16777216)] := by
  simp [natToLE, Nat.div_div_eq_div_mul]

theorem rotR_rotL {w : Nat} (x : BitVec w) (k : Nat) : (x.rotateLeft k).rotateRight k = x := by
  apply BitVec.eq_of_getElem_eq
  intro i hi
  have hw : 0 < w := by omega
  have hk := Nat.mod_lt k hw
  simp only [BitVec.getElem_rotateRight, BitVec.getElem_rotateLeft]
  split
  · rw [dif_neg (by omega)]
    congr 1; omega
  · rename_i h
    rw [dif_pos (by omega)]
    congr 1; omega

theorem rotL_rotR {w : Nat} (x : BitVec w) (k : Nat) : (x.rotateRight k).rotateLeft k = x := by
  apply BitVec.eq_of_getElem_eq
  intro i hi
  have hw : 0 < w := by omega
  have hk := Nat.mod_lt k hw
  simp only [BitVec.getElem_rotateRight, BitVec.getElem_rotateLeft]
  split
  · rw [dif_neg (by omega)]
    congr 1; omega
  · rename_i h
    rw [dif_pos (by omega)]
    congr 1; omega

theorem rotateLeft_mod32 (x : U32) (k : Nat) : x.rotateLeft (k % 32) = x.rotateLeft k := by
  simp only [BitVec.rotateLeft, Nat.mod_mod]

theorem leVal_lt (l : List U8) : leVal l < 256 ^ l.length := by
  induction l with
  | nil => simp [leVal]
  | cons b l ih =>
    have := b.isLt
    simp only [leVal, List.length_cons, Nat.pow_succ]
    omega

theorem leVal_inj {l l' : List U8} (hl : l.length = l'.length) (h : leVal l = leVal l') : l = l' := by
  induction l generalizing l' with
  | nil => cases l' with
    | nil => rfl
    | cons => simp at hl
  | cons b l ih => cases l' with
    | nil => simp at hl
    | cons b' l' =>
      have h1 := b.isLt; have h2 := b'.isLt
      simp only [leVal] at h
      have e1 : b = b' := BitVec.eq_of_toNat_eq (by omega)
      have e2 : leVal l = leVal l' := by omega
      rw [e1, ih (by simpa using hl) e2]

end Verif
