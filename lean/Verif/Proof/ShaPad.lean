import Verif.Proof.Chunks
import Verif.Proof.Words
import Verif.Spec.Sha
import Verif.Model.Sha

/-! # Copying, padding and serialising in the SHA code -/

namespace Verif

theorem copyInto_ok {N : Nat} (dst : Vector U8 N) (off : Nat) (src : List U8) (h : off + src.length ≤ N) :
    ∃ v, copyInto dst off src = .ok v ∧
      v.toList = dst.toList.take off ++ src ++ dst.toList.drop (off + src.length) := by
  unfold copyInto
  rw [if_pos h]
  refine ⟨_, rfl, ?_⟩
  apply List.ext_getElem
  · simp; omega
  · intro i h1 h2
    have hi : i < N := by simpa using h1
    simp only [Vector.getElem_toList, Vector.getElem_ofFn]
    by_cases h3 : off ≤ i
    · by_cases h4 : i < off + src.length
      · rw [if_pos ⟨h3, h4⟩, List.getElem_append_left (by simp; omega), List.getElem_append_right (by simp; omega)]
        have : min off N = off := by omega
        simp only [List.length_take, Vector.length_toList, this]
        rw [List.getD_eq_getElem?_getD, List.getElem?_eq_getElem (by omega)]; rfl
      · rw [if_neg (by omega), List.getElem_append_right (by simp; omega)]
        have e : off + src.length + (i - (min off N + src.length)) = i := by omega
        simp [e]
    · rw [if_neg (by omega), List.getElem_append_left (by simp; omega), List.getElem_append_left (by simp; omega)]
      simp

theorem vset_ok {α : Type} {n : Nat} (v : Vector α n) (i : Nat) (a : α) (h : i < n) :
    vset v i a = .ok (v.set i a) := by unfold vset; rw [dif_pos h]

theorem length_natToLE (k n : Nat) : (natToLE k n).length = k := by
  induction k generalizing n with
  | zero => rfl
  | succ k ih => simp [natToLE, ih]

theorem length_natToBE (k n : Nat) : (natToBE k n).length = k := by simp [natToBE, length_natToLE]

theorem leVal_natToLE (k n : Nat) : leVal (natToLE k n) = n % 256 ^ k := by
  induction k generalizing n with
  | zero => simp [natToLE, leVal, Nat.mod_one]
  | succ k ih =>
    simp only [natToLE, leVal, ih, BitVec.toNat_ofNat]
    rw [Nat.pow_succ 256 k, Nat.mul_comm (256 ^ k) 256, Nat.mod_mul]

theorem beVal_natToBE (k n : Nat) : beVal (natToBE k n) = n % 256 ^ k := by
  simp [beVal, natToBE, leVal_natToLE]

theorem natToLE_leVal (l : List U8) : natToLE l.length (leVal l) = l := by
  induction l with
  | nil => rfl
  | cons b l ih =>
    have h1 : BitVec.ofNat 8 (b.toNat + 256 * leVal l) = b := by
      apply BitVec.eq_of_toNat_eq
      rw [BitVec.toNat_ofNat]
      have := b.isLt
      omega
    have h2 : (b.toNat + 256 * leVal l) / 256 = leVal l := by have := b.isLt; omega
    simp only [List.length_cons, natToLE, leVal, h1, h2, ih]

theorem natToBE_beVal (l : List U8) : natToBE l.length (beVal l) = l := by
  have := natToLE_leVal l.reverse
  simp only [List.length_reverse] at this
  simp [natToBE, beVal, this]

end Verif

namespace Verif.Model.Sha
open Verif
open Verif.Spec.Sha (pad)

/-- What both padding functions compute, for block size `N` and length field of `L` bytes. -/
theorem pad_blocks {N L : Nat} (hL : L + 1 ≤ N) (src lenb : List U8) (hs : src.length < N)
    (hl : lenb.length = L) :
    ∃ last0 : Vector U8 N, copyInto (Vector.replicate N 0#8) 0 src = .ok last0 ∧
      ∃ last1, vset last0 src.length 0x80#8 = .ok last1 ∧
      (src.length < N - L → ∃ last2, copyInto last1 (N - L) lenb = .ok last2 ∧
        last2.toList = src ++ 0x80#8 :: List.replicate (N - L - 1 - src.length) 0#8 ++ lenb) ∧
      (¬ src.length < N - L → ∃ extra : Vector U8 N, copyInto (Vector.replicate N 0#8) (N - L) lenb = .ok extra ∧
        last1.toList ++ extra.toList = src ++ 0x80#8 :: List.replicate (2 * N - L - 1 - src.length) 0#8 ++ lenb) := by
  obtain ⟨v, hv, e⟩ := copyInto_ok (Vector.replicate N 0#8) 0 src (by omega)
  refine ⟨v, hv, _, vset_ok v src.length _ hs, ?_⟩
  have e1 : (v.set src.length 0x80#8).toList = src ++ 0x80#8 :: List.replicate (N - 1 - src.length) 0#8 := by
    rw [Vector.toList_set, e]
    simp only [List.take_zero, List.nil_append, Nat.zero_add, Vector.toList_replicate, List.drop_replicate]
    rw [List.set_append_right _ _ (by omega), Nat.sub_self,
      show N - src.length = (N - 1 - src.length) + 1 by omega, List.replicate_succ, List.set_cons_zero]
  constructor
  · intro h
    obtain ⟨w, hw, ew⟩ := copyInto_ok (v.set src.length 0x80#8) (N - L) lenb (by omega)
    refine ⟨w, hw, ?_⟩
    rw [ew, e1, List.drop_eq_nil_of_le (by simp; omega), List.append_nil]
    congr 1
    rw [List.take_append, List.take_of_length_le (by omega)]
    congr 1
    rw [show N - L - src.length = (N - L - 1 - src.length) + 1 by omega, List.take_succ_cons,
      List.take_replicate]
    congr 2; omega
  · intro h
    obtain ⟨w, hw, ew⟩ := copyInto_ok (Vector.replicate N 0#8) (N - L) lenb (by omega)
    refine ⟨w, hw, ?_⟩
    rw [ew, e1, Vector.toList_replicate, List.drop_eq_nil_of_le (by simp; omega), List.append_nil,
      List.take_replicate, List.append_assoc, List.cons_append, ← List.append_assoc (List.replicate _ _),
      List.replicate_append_replicate, List.append_assoc, List.cons_append]
    congr 4; omega

theorem sha1Padding_ok (src : List U8) (len : Nat) (hs : src.length < 64) (hlen : len < 2 ^ 61) :
    ∃ last extra, sha1Padding src len = .ok (last, extra) ∧
      last.toList ++ (extra.toList.flatMap Vector.toList) =
        src ++ 0x80#8 :: List.replicate ((119 - src.length) % 64) 0#8 ++ natToBE 8 (8 * len) := by
  obtain ⟨l0, h0, l1, h1, hA, hB⟩ := pad_blocks (N := 64) (L := 8) (by omega) src (natToBE 8 (8 * len)) hs
    (length_natToBE _ _)
  have hm : mulU64 len 8 = .ok (8 * len) := by
    unfold mulU64; rw [if_pos (by omega), Nat.mul_comm]
  unfold sha1Padding
  by_cases h : src.length < 64 - 8
  · obtain ⟨l2, h2, e⟩ := hA h
    refine ⟨l2, none, ?_, ?_⟩
    · simp only [h0, h1, hm, h2, if_pos h, bind, Except.bind]
    · simp only [Option.toList_none, List.flatMap_nil, List.append_nil, e]
      congr 4; omega
  · obtain ⟨ex, h2, e⟩ := hB h
    refine ⟨l1, some ex, ?_, ?_⟩
    · simp only [h0, h1, hm, h2, if_neg h, bind, Except.bind]
    · simp only [Option.toList_some, List.flatMap_cons, List.flatMap_nil, List.append_nil, e]
      congr 4; omega

theorem sha2PaddingBig_ok (src : List U8) (len : Nat) (hs : src.length < 128) (hlen : len < 2 ^ 125) :
    ∃ last extra, sha2PaddingBig src len = .ok (last, extra) ∧
      last.toList ++ (extra.toList.flatMap Vector.toList) =
        src ++ 0x80#8 :: List.replicate ((239 - src.length) % 128) 0#8 ++ natToBE 16 (8 * len) := by
  obtain ⟨l0, h0, l1, h1, hA, hB⟩ := pad_blocks (N := 128) (L := 16) (by omega) src
    (natToBE 16 (8 * len)) hs (length_natToBE _ _)
  have hm : mulU128 len 8 = .ok (8 * len) := by
    unfold mulU128; rw [if_pos (by omega), Nat.mul_comm]
  unfold sha2PaddingBig
  by_cases h : src.length < 128 - 16
  · obtain ⟨l2, h2, e⟩ := hA h
    refine ⟨l2, none, ?_, ?_⟩
    · simp only [h0, h1, hm, h2, if_pos h, bind, Except.bind]
    · simp only [Option.toList_none, List.flatMap_nil, List.append_nil, e]
      congr 4; omega
  · obtain ⟨ex, h2, e⟩ := hB h
    refine ⟨l1, some ex, ?_, ?_⟩
    · simp only [h0, h1, hm, h2, if_neg h, bind, Except.bind]
    · simp only [Option.toList_some, List.flatMap_cons, List.flatMap_nil, List.append_nil, e]
      congr 4; omega

theorem sha1Padding_overflow (src : List U8) (len : Nat) (hs : src.length < 64) (hlen : 2 ^ 61 ≤ len) :
    sha1Padding src len = .error .overflow := by
  obtain ⟨l0, h0, l1, h1, -, -⟩ := pad_blocks (N := 64) (L := 8) (by omega) src (natToBE 8 (8 * len)) hs
    (length_natToBE _ _)
  have hm : mulU64 len 8 = .error .overflow := by
    unfold mulU64; rw [if_neg (by omega)]
  unfold sha1Padding
  simp only [h0, h1, hm, bind, Except.bind]
  split <;> rfl

/-- The whole sequence of blocks is the padded message, cut up. -/
theorem blocks64 (m : List U8) (hm : m.length < 2 ^ 61) : ∃ last extra,
    sha1Padding (chunksRem 64 m) m.length = .ok (last, extra) ∧
    (chunksExact 64 m ++ last :: extra.toList).flatMap Vector.toList = pad 64 8 m := by
  obtain ⟨bs, tail, e, ht, -⟩ := exists_chunks (n := 64) (by omega) m
  have htl : tail.length < 64 := by rw [ht]; exact Nat.mod_lt _ (by omega)
  have hr : chunksRem 64 m = tail := by rw [e]; exact chunksRem_eq bs tail htl
  have hc : chunksExact 64 m = bs := by rw [e]; exact chunksExact_eq bs tail htl
  obtain ⟨last, extra, h, he⟩ := sha1Padding_ok tail m.length htl hm
  refine ⟨last, extra, by rw [hr, h], ?_⟩
  rw [hc, List.flatMap_append, List.flatMap_cons, he, pad, ← ht]
  conv => rhs; lhs; rw [e]
  simp

theorem blocks128 (m : List U8) (hm : m.length < 2 ^ 125) : ∃ last extra,
    sha2PaddingBig (chunksRem 128 m) m.length = .ok (last, extra) ∧
    (chunksExact 128 m ++ last :: extra.toList).flatMap Vector.toList = pad 128 16 m := by
  obtain ⟨bs, tail, e, ht, -⟩ := exists_chunks (n := 128) (by omega) m
  have htl : tail.length < 128 := by rw [ht]; exact Nat.mod_lt _ (by omega)
  have hr : chunksRem 128 m = tail := by rw [e]; exact chunksRem_eq bs tail htl
  have hc : chunksExact 128 m = bs := by rw [e]; exact chunksExact_eq bs tail htl
  obtain ⟨last, extra, h, he⟩ := sha2PaddingBig_ok tail m.length htl hm
  refine ⟨last, extra, by rw [hr, h], ?_⟩
  rw [hc, List.flatMap_append, List.flatMap_cons, he, pad, ← ht]
  conv => rhs; lhs; rw [e]
  simp

/-! ## Serialising -/

theorem u32sLoop_ok {B : Nat} (i : Nat) (ws : List U32) (v : Vector U8 B) (h : 4 * (i + ws.length) ≤ B) :
    ∃ r, u32sLoop i ws v = .ok r ∧ r.toList = v.toList.take (4 * i) ++ (ws.flatMap fun w => natToBE 4 w.toNat) ++
      v.toList.drop (4 * (i + ws.length)) := by
  induction ws generalizing i v with
  | nil => exact ⟨v, rfl, by simp⟩
  | cons w ws ih =>
    simp only [List.length_cons] at h
    obtain ⟨u, hu, eu⟩ := copyInto_ok v (4 * i) (natToBE 4 w.toNat) (by rw [length_natToBE]; omega)
    obtain ⟨r, hr, er⟩ := ih (i + 1) u (by omega)
    refine ⟨r, ?_, ?_⟩
    · simp only [u32sLoop, hu, hr, bind, Except.bind]
    · rw [length_natToBE] at eu
      have hb : v.toList.length = B := Vector.length_toList
      rw [er, eu, List.length_cons, List.flatMap_cons]
      have e1 : List.take (4 * (i + 1)) (v.toList.take (4 * i) ++ natToBE 4 w.toNat ++ v.toList.drop (4 * i + 4)) =
          v.toList.take (4 * i) ++ natToBE 4 w.toNat := by
        rw [List.take_left' (by simp only [List.length_append, List.length_take, length_natToBE, hb]; omega)]
      have e2 : List.drop (4 * (i + 1 + ws.length)) (v.toList.take (4 * i) ++ natToBE 4 w.toNat ++ v.toList.drop (4 * i + 4)) =
          v.toList.drop (4 * (i + (ws.length + 1))) := by
        rw [List.drop_append, List.drop_eq_nil_of_le
          (by simp only [List.length_append, List.length_take, length_natToBE, hb]; omega), List.nil_append,
          List.drop_drop]
        congr 1; simp only [List.length_append, List.length_take, length_natToBE, hb]; omega
      rw [e1, e2]; simp

theorem u64sLoop_ok {B : Nat} (i : Nat) (ws : List U64) (v : Vector U8 B) (h : 8 * (i + ws.length) ≤ B) :
    ∃ r, u64sLoop i ws v = .ok r ∧ r.toList = v.toList.take (8 * i) ++ (ws.flatMap fun w => natToBE 8 w.toNat) ++
      v.toList.drop (8 * (i + ws.length)) := by
  induction ws generalizing i v with
  | nil => exact ⟨v, rfl, by simp⟩
  | cons w ws ih =>
    simp only [List.length_cons] at h
    obtain ⟨u, hu, eu⟩ := copyInto_ok v (8 * i) (natToBE 8 w.toNat) (by rw [length_natToBE]; omega)
    obtain ⟨r, hr, er⟩ := ih (i + 1) u (by omega)
    refine ⟨r, ?_, ?_⟩
    · simp only [u64sLoop, hu, hr, bind, Except.bind]
    · rw [length_natToBE] at eu
      have hb : v.toList.length = B := Vector.length_toList
      rw [er, eu, List.length_cons, List.flatMap_cons]
      have e1 : List.take (8 * (i + 1)) (v.toList.take (8 * i) ++ natToBE 8 w.toNat ++ v.toList.drop (8 * i + 8)) =
          v.toList.take (8 * i) ++ natToBE 8 w.toNat := by
        rw [List.take_left' (by simp only [List.length_append, List.length_take, length_natToBE, hb]; omega)]
      have e2 : List.drop (8 * (i + 1 + ws.length)) (v.toList.take (8 * i) ++ natToBE 8 w.toNat ++ v.toList.drop (8 * i + 8)) =
          v.toList.drop (8 * (i + (ws.length + 1))) := by
        rw [List.drop_append, List.drop_eq_nil_of_le
          (by simp only [List.length_append, List.length_take, length_natToBE, hb]; omega), List.nil_append,
          List.drop_drop]
        congr 1; simp only [List.length_append, List.length_take, length_natToBE, hb]; omega
      rw [e1, e2]; simp

theorem u32sToBytes_ok {W B : Nat} (h : 4 * W = B) (ws : Vector U32 W) :
    ∃ r, u32sToBytes B ws = .ok r ∧ r.toList = Spec.Sha.bytes ws.toList := by
  obtain ⟨r, hr, e⟩ := u32sLoop_ok 0 ws.toList (Vector.replicate B 0#8) (by simp; omega)
  exact ⟨r, hr, by rw [e]; simp [Spec.Sha.bytes, h]⟩

theorem u64sToBytes_ok {W B : Nat} (h : 8 * W = B) (ws : Vector U64 W) :
    ∃ r, u64sToBytes B ws = .ok r ∧ r.toList = Spec.Sha.bytes ws.toList := by
  obtain ⟨r, hr, e⟩ := u64sLoop_ok 0 ws.toList (Vector.replicate B 0#8) (by simp; omega)
  exact ⟨r, hr, by rw [e]; simp [Spec.Sha.bytes, h]⟩

end Verif.Model.Sha
