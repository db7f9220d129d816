import Verif.Proof.Md
import Verif.Proof.Release

/-! # The hash functions in the release profile -/

namespace Verif.Model.Release
open Verif

theorem natToLE_mod (k : Nat) : ∀ n, natToLE k (n % 256 ^ k) = natToLE k n := by
  induction k with
  | zero => intro n; rfl
  | succ k ih =>
    intro n
    rw [natToLE, natToLE]
    congr 1
    · apply BitVec.eq_of_toNat_eq
      rw [BitVec.toNat_ofNat, BitVec.toNat_ofNat, Nat.pow_succ, Nat.mul_comm (256 ^ k) 256,
        Nat.mod_mul_right_mod]
    · rw [← ih (n / 256)]
      congr 1
      rw [Nat.pow_succ, Nat.mul_comm, Nat.mod_mul_right_div_self]

theorem natToLE_mulW (n : Nat) : natToLE 8 (mulW 64 n 8) = natToLE 8 (8 * n) := by
  rw [← natToLE_mod 8 (8 * n), mulW, Nat.mul_comm, show (2 : Nat) ^ 64 = 256 ^ 8 by norm_num]

theorem natToBE_mulW (n : Nat) : natToBE 8 (mulW 64 n 8) = natToBE 8 (8 * n) := by
  rw [natToBE, natToBE, natToLE_mulW]

/-! ## SHA -/
section
open Sha

theorem sha1Padding_ok (src : List U8) (len : Nat) (hs : src.length < 64) :
    ∃ last extra, sha1Padding src len = .ok (last, extra) ∧
      last.toList ++ (extra.toList.flatMap Vector.toList) =
        src ++ 0x80#8 :: List.replicate ((119 - src.length) % 64) 0#8 ++ natToBE 8 (8 * len) := by
  obtain ⟨l0, h0, l1, h1, hA, hB⟩ := pad_blocks (N := 64) (L := 8) (by omega) src (natToBE 8 (8 * len)) hs
    (length_natToBE _ _)
  unfold sha1Padding
  rw [natToBE_mulW]
  by_cases h : src.length < 64 - 8
  · obtain ⟨l2, h2, e⟩ := hA h
    refine ⟨l2, none, ?_, ?_⟩
    · simp only [h0, h1, h2, if_pos h, bind, Except.bind]
    · simp only [Option.toList_none, List.flatMap_nil, List.append_nil, e]
      congr 4; omega
  · obtain ⟨ex, h2, e⟩ := hB h
    refine ⟨l1, some ex, ?_, ?_⟩
    · simp only [h0, h1, h2, if_neg h, bind, Except.bind]
    · simp only [Option.toList_some, List.flatMap_cons, List.flatMap_nil, List.append_nil, e]
      congr 4; omega

theorem blocks64 (m : List U8) : ∃ last extra,
    sha1Padding (chunksRem 64 m) m.length = .ok (last, extra) ∧
    (chunksExact 64 m ++ last :: extra.toList).flatMap Vector.toList = Spec.Sha.pad 64 8 m := by
  obtain ⟨bs, tail, e, ht, -⟩ := exists_chunks (n := 64) (by omega) m
  have htl : tail.length < 64 := by rw [ht]; exact Nat.mod_lt _ (by omega)
  have hr : chunksRem 64 m = tail := by rw [e]; exact chunksRem_eq bs tail htl
  have hc : chunksExact 64 m = bs := by rw [e]; exact chunksExact_eq bs tail htl
  obtain ⟨last, extra, h, he⟩ := sha1Padding_ok tail m.length htl
  refine ⟨last, extra, by rw [hr, h], ?_⟩
  rw [hc, List.flatMap_append, List.flatMap_cons, he, Spec.Sha.pad, ← ht]
  conv => rhs; lhs; rw [e]
  simp

theorem sha1_eq (m : List U8) : ∃ d, sha1 m = .ok d ∧ d.toList = Spec.Sha.sha1 m := by
  obtain ⟨last, extra, hp, hb⟩ := blocks64 m
  have hlen : (Spec.Sha.pad 64 8 m).length / 64 = (chunksExact 64 m ++ last :: extra.toList).length := by
    rw [← hb, length_flatMap_toList, Nat.mul_div_cancel _ (by omega)]
  have hh := sha1_hash_blocks (chunksExact 64 m ++ last :: extra.toList)
  obtain ⟨d, hd, ed⟩ := u32sToBytes_ok (B := 20) rfl ((chunksExact 64 m ++ last :: extra.toList).foldl sha1Chunk sha1Init)
  refine ⟨d, ?_, ?_⟩
  · unfold sha1
    simp only [hp, bind, Except.bind]
    rw [← hd, ← foldl_opt]
    cases extra <;> rfl
  · rw [ed]
    unfold Spec.Sha.sha1
    simp only
    rw [hlen, ← hb, ← hh]
    congr 1
    generalize (chunksExact 64 m ++ last :: extra.toList).foldl sha1Chunk sha1Init = v
    apply List.ext_getElem
    · simp
    · intro i h1 h2
      rcases i with _ | _ | _ | _ | _ | i
      all_goals first | (simp at h2; omega) | simp [five]

theorem sha256Core_eq (init : Vector U32 8) (m : List U8) :
    ∃ v, sha256Core init m = .ok v ∧ eight v = Spec.Sha.sha2Hash Spec.Sha.family32 (eight init)
      (Spec.Sha.pad 64 8 m) ((Spec.Sha.pad 64 8 m).length / 64) := by
  obtain ⟨last, extra, hp, hb⟩ := blocks64 m
  have hlen : (Spec.Sha.pad 64 8 m).length / 64 = (chunksExact 64 m ++ last :: extra.toList).length := by
    rw [← hb, length_flatMap_toList, Nat.mul_div_cancel _ (by omega)]
  refine ⟨(chunksExact 64 m ++ last :: extra.toList).foldl sha256Chunk init, ?_, ?_⟩
  · unfold sha256Core
    simp only [hp, bind, Except.bind]
    rw [← foldl_opt]
    cases extra <;> rfl
  · rw [hlen, ← hb]
    exact sha256_hash_blocks init _

theorem sha256_eq (m : List U8) : ∃ d, sha256 m = .ok d ∧ d.toList = Spec.Sha.sha256 m := by
  obtain ⟨v, hv, ev⟩ := sha256Core_eq INITIAL_HASH_256 m
  obtain ⟨d, hd, ed⟩ := u32sToBytes_ok (B := 32) rfl v
  refine ⟨d, by simp only [sha256, hv, hd, bind, Except.bind], ?_⟩
  rw [eight_256] at ev
  rw [ed, toList8]
  simp only [Spec.Sha.sha256, ← ev]
  rfl

theorem sha224_eq (m : List U8) : ∃ d, sha224 m = .ok d ∧ d.toList = Spec.Sha.sha224 m := by
  obtain ⟨v, hv, ev⟩ := sha256Core_eq INITIAL_HASH_224 m
  obtain ⟨d, hd, ed⟩ := u32sToBytes_ok (B := 28) rfl (#v[v[0], v[1], v[2], v[3], v[4], v[5], v[6]])
  refine ⟨d, by simp only [sha224, hv, hd, bind, Except.bind], ?_⟩
  rw [eight_224] at ev
  rw [ed]
  simp only [Spec.Sha.sha224, ← ev]
  rfl

end

/-! ## MD4 and MD5 -/
section
open Md
variable {process : Vector U32 16 → Abcd → R Abcd} {P : Vector U32 16 → Abcd → Abcd}

theorem consume_short (l : List U8) (h : Hasher) (hl : h.unprocessed.length + l.length < 64) :
    l.foldlM (consume process) ⟨h.unprocessed, h.bytesConsumed % 2 ^ 64, h.s⟩ =
      .ok ⟨h.unprocessed ++ l, (h.bytesConsumed + l.length) % 2 ^ 64, h.s⟩ := by
  induction l generalizing h with
  | nil => simp [pure, Except.pure]
  | cons b l ih =>
    simp only [List.length_cons] at hl
    rw [List.foldlM_cons]
    have : consume process ⟨h.unprocessed, h.bytesConsumed % 2 ^ 64, h.s⟩ b =
        .ok ⟨h.unprocessed ++ [b], (h.bytesConsumed + 1) % 2 ^ 64, h.s⟩ := by
      unfold consume
      simp only
      rw [if_neg (by simp; omega), addW]
      congr 2; omega
    rw [this]
    show l.foldlM (consume process) _ = _
    rw [ih ⟨h.unprocessed ++ [b], h.bytesConsumed + 1, h.s⟩ (by simp; omega)]
    simp only [List.append_assoc, List.singleton_append, List.length_cons]
    congr 2; omega

theorem consume_block (hP : ∀ x s, process x s = .ok (P x s)) (b : Vector U8 64) (n : Nat) (s : Abcd) :
    b.toList.foldlM (consume process) ⟨[], n % 2 ^ 64, s⟩ = .ok ⟨[], (n + 64) % 2 ^ 64, comp P s b⟩ := by
  have hsplit : b.toList = b.toList.take 63 ++ [b[63]] := by
    have h64 : b.toList = b.toList.take 64 := by rw [List.take_of_length_le (by simp)]
    conv => lhs; rw [h64]
    rw [List.take_succ_eq_append_getElem (by simp)]
    simp
  have hlen : (b.toList.take 63).length = 63 := by simp
  have h1 := consume_short (process := process) (b.toList.take 63) ⟨[], n, s⟩ (by simp)
  rw [hsplit, List.foldlM_append, h1]
  simp only [bind, Except.bind, List.foldlM_cons, List.foldlM_nil, List.nil_append, hlen]
  have : consume process ⟨b.toList.take 63, (n + 63) % 2 ^ 64, s⟩ b[63] = .ok ⟨[], (n + 64) % 2 ^ 64, comp P s b⟩ := by
    unfold consume
    simp only
    rw [if_pos (by simp), ← hsplit]
    unfold Hasher.processBlock
    simp only [blockFromSlice_toList, hP, bind, Except.bind, addW]
    rw [show ((n + 63) % 2 ^ 64 + 1) % 2 ^ 64 = (n + 64) % 2 ^ 64 by omega]
    rfl
  rw [this]
  rfl

theorem consume_blocks (hP : ∀ x s, process x s = .ok (P x s)) (bs : List (Vector U8 64)) (n : Nat) (s : Abcd) :
    (bs.flatMap Vector.toList).foldlM (consume process) ⟨[], n % 2 ^ 64, s⟩ =
      .ok ⟨[], (n + 64 * bs.length) % 2 ^ 64, bs.foldl (comp P) s⟩ := by
  induction bs generalizing n s with
  | nil => rfl
  | cons b bs ih =>
    rw [List.flatMap_cons, List.foldlM_append, consume_block hP b n s]
    show (bs.flatMap Vector.toList).foldlM (consume process) _ = _
    rw [ih]
    simp only [List.length_cons, List.foldl_cons]
    congr 2; omega

theorem consume_all (hP : ∀ x s, process x s = .ok (P x s)) (bs : List (Vector U8 64)) (tail : List U8)
    (ht : tail.length < 64) :
    (bs.flatMap Vector.toList ++ tail).foldlM (consume process) Hasher.new =
      .ok ⟨tail, (64 * bs.length + tail.length) % 2 ^ 64, bs.foldl (comp P) Hasher.new.s⟩ := by
  rw [List.foldlM_append]
  have : Hasher.new = ⟨[], 0 % 2 ^ 64, Hasher.new.s⟩ := rfl
  rw [this, consume_blocks hP bs 0 _]
  show tail.foldlM (consume process) _ = _
  have h1 := consume_short (process := process) tail ⟨[], 0 + 64 * bs.length, bs.foldl (comp P) Hasher.new.s⟩ (by simpa using ht)
  simp only at h1
  rw [h1]
  simp

theorem numPadBytes_eq (a : Nat) (ha : a < 64) : numPadBytes a = (119 - a) % 64 + 1 := by
  unfold numPadBytes subW
  by_cases h : a = 56
  · rw [if_pos h]; subst h; rfl
  · rw [if_neg h, if_pos (by omega)]; omega

theorem mdHash_eq (hP : ∀ x s, process x s = .ok (P x s)) (m : List U8) :
    ∃ (bs : List (Vector U8 64)) (v : Vector U8 16), bs.flatMap Vector.toList = Spec.Md.pad m ∧
      mdHash process m = .ok v ∧
      (let s := bs.foldl (comp P) Hasher.new.s
       v.toList = natToLE 4 s.a.toNat ++ natToLE 4 s.b.toNat ++ natToLE 4 s.c.toNat ++ natToLE 4 s.d.toNat) := by
  obtain ⟨bs, tail, e, ht, hbl⟩ := exists_chunks (n := 64) (by omega) m
  have htl : tail.length < 64 := by rw [ht]; exact Nat.mod_lt _ (by omega)
  have hml : m.length = 64 * bs.length + tail.length := by rw [ht, hbl]; omega
  obtain ⟨cs, tail', e', ht', hcl⟩ := exists_chunks (n := 64) (by omega) (Spec.Md.pad m)
  rw [pad_length_mod] at ht'
  have htl' : tail' = [] := List.eq_nil_of_length_eq_zero ht'
  subst htl'
  have h1 := consume_all hP bs tail htl
  rw [← e, ← hml] at h1
  have h2 := consume_all hP cs [] (by simp)
  rw [← e'] at h2
  have hpad : Spec.Md.pad m = m ++ padding tail.length m.length := by
    unfold Spec.Md.pad padding
    rw [ht]; simp
  rw [hpad, List.foldlM_append, h1] at h2
  simp only [bind, Except.bind] at h2
  obtain ⟨v, hv, ev⟩ := out_ok (cs.foldl (comp P) Hasher.new.s).a (cs.foldl (comp P) Hasher.new.s).b
    (cs.foldl (comp P) Hasher.new.s).c (cs.foldl (comp P) Hasher.new.s).d
  refine ⟨cs, v, by rw [e', List.append_nil], ?_, ev⟩
  have hmul : natToLE 8 (mulW 64 (m.length % 2 ^ 64) 8) = natToLE 8 (8 * m.length) := by
    rw [← natToLE_mulW, mulW, mulW, Nat.mod_mul_mod]
  have hsub : subW 64 ((119 - tail.length) % 64 + 1) 1 = (119 - tail.length) % 64 := by
    unfold subW; rw [if_pos (by omega)]; rfl
  unfold mdHash
  rw [h1]
  show finish process _ = _
  unfold finish
  simp only [hmul, numPadBytes_eq _ htl, hsub]
  rw [padding, List.foldlM_append, List.foldlM_cons] at h2
  generalize consume process ⟨tail, m.length % 2 ^ 64, bs.foldl (comp P) Hasher.new.s⟩ 0x80#8 = r1 at h2 ⊢
  cases r1 with
  | error e => simp [bind, Except.bind] at h2
  | ok r1 =>
    simp only [bind, Except.bind] at h2 ⊢
    generalize (List.replicate ((119 - tail.length) % 64) 0#8).foldlM (consume process) r1 = r2 at h2 ⊢
    cases r2 with
    | error e => simp at h2
    | ok r2 =>
      simp only at h2 ⊢
      rw [h2]
      simpa only [bind, Except.bind] using hv

theorem mdHash_spec {new : Nat → (Nat → U32) → Spec.Md.Four → U32} {n : Nat} (hP : ∀ x s, process x s = .ok (P x s))
    (hPn : ∀ (x : Vector U32 16) (X : Nat → U32) (s : Abcd), (∀ k (_ : k < 16), X k = x[k]) →
      four (P x s) = Spec.Md.steps new X (four s) n) (m : List U8) :
    ∃ v, mdHash process m = .ok v ∧ v.toList = Spec.Md.digest new n m := by
  obtain ⟨bs, v, hb, hv, ev⟩ := mdHash_eq hP m
  refine ⟨v, hv, ?_⟩
  have hlen : (Spec.Md.pad m).length / 64 = bs.length := by
    rw [← hb, length_flatMap_toList, Nat.mul_div_cancel _ (by omega)]
  unfold Spec.Md.digest
  simp only
  rw [hlen, ← hb, ← buffer_eq hPn bs]
  exact ev

theorem md4_eq (m : List U8) : ∃ v, md4 m = .ok v ∧ v.toList = Spec.Md.md4 m :=
  mdHash_spec (P := Md4.process) (fun _ _ => rfl) Md4.process_eq m

theorem md5_eq (m : List U8) : ∃ v, md5 m = .ok v ∧ v.toList = Spec.Md.md5 m :=
  mdHash_spec (P := Md5.processT) Md5.process_total Md5.processT_eq m

end

end Verif.Model.Release
