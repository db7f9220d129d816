import Verif.Model.Oaep
import Verif.Spec.Oaep
import Verif.Proof.ShaPad
import Verif.Proof.Rsa
import Mathlib.Data.List.TakeWhile

/-! # MGF1 and OAEP -/

namespace Verif.Model.Oaep
open Verif Verif.Model.Rsa

theorem natToBE4 (c : Nat) : natToBE 4 c = Spec.Oaep.i2osp4 c := by
  simp only [natToBE, natToLE, Spec.Oaep.i2osp4, List.reverse_cons, List.reverse_nil, List.nil_append, List.cons_append,
    Nat.div_div_eq_div_mul, Nat.reduceMul, Nat.reducePow]

/-! ## MGF1 -/

section Mgf
variable {N : Nat} {hash : List U8 → R (Vector U8 N)} {h : List U8 → Vector U8 N} {seed : List U8}

theorem length_digests (f : Nat → Vector U8 N) (k : Nat) : ((List.range k).flatMap fun c => (f c).toList).length = k * N := by
  induction k with
  | zero => simp
  | succ k ih => rw [List.range_succ, List.flatMap_append, List.length_append, ih, Nat.succ_mul]; simp

theorem lt_ceil (hN : 0 < N) (c len : Nat) : c * N < len ↔ c < (len + N - 1) / N := by
  rw [Nat.lt_iff_add_one_le, ← Nat.succ_le_iff, Nat.succ_eq_add_one, Nat.le_div_iff_mul_le hN, Nat.add_mul]
  omega

theorem mgf1Loop_ok (hh : ∀ c, hash (seed ++ natToBE 4 c) = .ok (h (seed ++ natToBE 4 c))) (hN : 0 < N) (len K : Nat)
    (hK : K = (len + N - 1) / N) (hlim : K < 2 ^ 32) (fuel c : Nat) (hc : c ≤ K) (hf : K - c < fuel) :
    mgf1Loop hash seed len fuel ((List.range c).flatMap fun c => (h (seed ++ natToBE 4 c)).toList) c =
      .ok ((List.range K).flatMap fun c => (h (seed ++ natToBE 4 c)).toList) := by
  induction fuel generalizing c with
  | zero => omega
  | succ fuel ih =>
    unfold mgf1Loop
    rw [length_digests (fun c => h (seed ++ natToBE 4 c))]
    by_cases hlt : c < K
    · rw [if_pos ((lt_ceil hN c len).2 (hK ▸ hlt))]
      have e : addU32 c 1 = .ok (c + 1) := by unfold addU32; rw [if_pos (by omega)]
      simp only [hh c, e, bind, Except.bind]
      have := ih (c + 1) (by omega) (by omega)
      rw [List.range_succ, List.flatMap_append] at this
      simpa using this
    · rw [if_neg (fun hx => hlt (hK ▸ (lt_ceil hN c len).1 hx))]
      have : c = K := by omega
      rw [this]

theorem mgf1Loop_panics (hh : ∀ c, hash (seed ++ natToBE 4 c) = .ok (h (seed ++ natToBE 4 c))) (hN : 0 < N) (len : Nat)
    (hlim : 2 ^ 32 ≤ (len + N - 1) / N) (fuel c : Nat) (hc : c < 2 ^ 32) (hf : 2 ^ 32 - c < fuel) :
    mgf1Loop hash seed len fuel ((List.range c).flatMap fun c => (h (seed ++ natToBE 4 c)).toList) c =
      .error .overflow := by
  induction fuel generalizing c with
  | zero => omega
  | succ fuel ih =>
    unfold mgf1Loop
    rw [length_digests (fun c => h (seed ++ natToBE 4 c))]
    rw [if_pos ((lt_ceil hN c len).2 (by omega))]
    by_cases hlast : c + 1 < 2 ^ 32
    · have e : addU32 c 1 = .ok (c + 1) := by unfold addU32; rw [if_pos hlast]
      simp only [hh c, e, bind, Except.bind]
      have := ih (c + 1) (by omega) (by omega)
      rw [List.range_succ, List.flatMap_append] at this
      simpa using this
    · have e : addU32 c 1 = .error .overflow := by unfold addU32; rw [if_neg hlast]
      simp only [hh c, e, bind, Except.bind]

theorem caps (len N : Nat) (hcap : len + N < 2 ^ 63) : addUsize len N = .ok (len + N) ∧ withCapacity (len + N) = .ok () := by
  unfold addUsize withCapacity
  rw [if_pos (by omega), if_pos hcap]
  exact ⟨rfl, rfl⟩

theorem mgf1_ok (hh : ∀ c, hash (seed ++ natToBE 4 c) = .ok (h (seed ++ natToBE 4 c))) (hN : 0 < N) (len : Nat)
    (hlim : (len + N - 1) / N < 2 ^ 32) (hcap : len + N < 2 ^ 63) :
    mgf1 hash seed len = .ok (Spec.Oaep.mgf1 h seed len) := by
  have e := mgf1Loop_ok hh hN len _ rfl hlim (2 ^ 32 + 1) 0 (Nat.zero_le _) (by omega)
  rw [List.range_zero, List.flatMap_nil] at e
  unfold mgf1 Spec.Oaep.mgf1
  simp only [(caps len N hcap).1, (caps len N hcap).2, e, bind, Except.bind, pure, Except.pure]
  simp only [natToBE4]

theorem mgf1_panics (hh : ∀ c, hash (seed ++ natToBE 4 c) = .ok (h (seed ++ natToBE 4 c))) (hN : 0 < N) (len : Nat)
    (hlim : 2 ^ 32 ≤ (len + N - 1) / N) (hcap : len + N < 2 ^ 63) : mgf1 hash seed len = .error .overflow := by
  have e := mgf1Loop_panics hh hN len hlim (2 ^ 32 + 1) 0 (by omega) (by omega)
  rw [List.range_zero, List.flatMap_nil] at e
  unfold mgf1
  simp only [(caps len N hcap).1, (caps len N hcap).2, e, bind, Except.bind]

theorem length_mgf1 (hN : 0 < N) (seed : List U8) (len : Nat) : (Spec.Oaep.mgf1 h seed len).length = len := by
  unfold Spec.Oaep.mgf1
  rw [List.length_take, length_digests (fun c => h (seed ++ Spec.Oaep.i2osp4 c))]
  have := (lt_ceil hN ((len + N - 1) / N) len)
  omega

theorem mgf1_prefix (hN : 0 < N) (seed : List U8) (a b : Nat) (hab : a ≤ b) :
    Spec.Oaep.mgf1 h seed a <+: Spec.Oaep.mgf1 h seed b := by
  unfold Spec.Oaep.mgf1
  obtain ⟨j, hj⟩ := Nat.exists_eq_add_of_le (show (a + N - 1) / N ≤ (b + N - 1) / N from
    Nat.div_le_div_right (by omega))
  rw [hj, List.range_add, List.flatMap_append]
  have hl := length_digests (fun c => h (seed ++ Spec.Oaep.i2osp4 c)) ((a + N - 1) / N)
  have hle : a ≤ (a + N - 1) / N * N := by
    have := (lt_ceil hN ((a + N - 1) / N) a)
    omega
  generalize ((List.range ((a + N - 1) / N)).flatMap fun c => (h (seed ++ Spec.Oaep.i2osp4 c)).toList) = x at hl
  generalize (((List.range j).map _).flatMap fun c => (h (seed ++ Spec.Oaep.i2osp4 c)).toList) = y
  have : x.take a = (x ++ y).take a := by rw [List.take_append_of_le_length (by omega)]
  rw [this]
  exact List.take_prefix_take_left (by omega)

end Mgf

/-! ## Exclusive or -/

theorem xorSlices_ok (a b : List U8) (hl : a.length = b.length) : xorSlices a b = .ok (Spec.Oaep.xor a b) := by
  unfold xorSlices Spec.Oaep.xor
  rw [if_pos hl]
  congr 1
  apply List.ext_getElem
  · simp [hl]
  · intro i h1 h2
    simp only [List.length_map, List.length_range] at h1
    simp only [List.getElem_map, List.getElem_range, List.getElem_zipWith]
    rw [List.getD_eq_getElem a _ h1, List.getD_eq_getElem b _ (by omega)]

theorem xorSlices_panics (a b : List U8) (hl : a.length ≠ b.length) : xorSlices a b = .error .assertion := by
  unfold xorSlices
  rw [if_neg hl]

theorem length_xor (a b : List U8) (hl : a.length = b.length) : (Spec.Oaep.xor a b).length = a.length := by
  unfold Spec.Oaep.xor
  simp [hl]

theorem xor_xor (a b : List U8) (hl : a.length = b.length) : Spec.Oaep.xor (Spec.Oaep.xor a b) b = a := by
  unfold Spec.Oaep.xor
  apply List.ext_getElem
  · simp [hl]
  · intro i h1 h2
    simp only [List.getElem_zipWith]
    rw [BitVec.xor_assoc, BitVec.xor_self, BitVec.xor_zero]

theorem xor_cancel (a b c : List U8) (ha : a.length = c.length) (hb : b.length = c.length)
    (h : Spec.Oaep.xor a c = Spec.Oaep.xor b c) : a = b := by
  rw [← xor_xor a c ha, h, xor_xor b c hb]

/-! ## The data block -/

/-- What `decode` does with the unmasked data block. -/
def parseDb (labelHash db : List U8) : Except DecodeError (List U8) :=
  if db.take labelHash.length ≠ labelHash then .error .wrongLabel
  else
    match (db.drop labelHash.length).dropWhile (· = 0#8) with
    | [] => .error .missingSeparator
    | b :: m => if b = 1#8 then .ok m else .error .separatorNotOne

theorem dropWhile_zeros (k : Nat) (b : U8) (m : List U8) (hb : b ≠ 0#8) :
    (List.replicate k 0#8 ++ b :: m).dropWhile (· = 0#8) = b :: m := by
  induction k with
  | zero => simp [hb]
  | succ k ih => simpa [List.replicate_succ, List.dropWhile_cons] using ih

theorem parseDb_ok (labelHash db m : List U8) :
    parseDb labelHash db = .ok m ↔ ∃ k, db = labelHash ++ List.replicate k 0#8 ++ [1#8] ++ m := by
  constructor
  · intro h
    unfold parseDb at h
    split at h
    · cases h
    · rename_i h1
      have h1 : db.take labelHash.length = labelHash := by simpa using h1
      have h0 := List.takeWhile_append_dropWhile (p := (· = 0#8)) (l := db.drop labelHash.length)
      split at h
      · cases h
      · rename_i b m' h2
        split at h
        · rename_i hb
          injection h with h
          subst h hb
          refine ⟨((db.drop labelHash.length).takeWhile (· = 0#8)).length, ?_⟩
          have h3 : (db.drop labelHash.length).takeWhile (· = 0#8) =
              List.replicate ((db.drop labelHash.length).takeWhile (· = 0#8)).length 0#8 := by
            apply List.eq_replicate_of_mem
            intro b hb
            simpa using List.mem_takeWhile_imp hb
          rw [← h3, List.append_assoc, List.append_assoc, List.singleton_append, ← h2, h0]
          conv => lhs; rw [← List.take_append_drop labelHash.length db, h1]
        · cases h
  · rintro ⟨k, rfl⟩
    unfold parseDb
    simp only [List.append_assoc, List.take_left, List.drop_left, ne_eq, not_true_eq_false, if_false, List.singleton_append]
    rw [dropWhile_zeros k _ _ (by decide)]
    simp

/-! ## Encoding and decoding -/

section Oaep
variable {N : Nat} {hash : List U8 → R (Vector U8 N)} {h : List U8 → Vector U8 N} {bound : Nat}

theorem length_dataBlock (label message : List U8) (k : Nat) (hk : message.length + 2 * N + 2 ≤ k) :
    (Spec.Oaep.dataBlock h label message k).length = k - N - 1 := by
  unfold Spec.Oaep.dataBlock
  simp only [List.length_append, Vector.length_toList, List.length_replicate, List.length_singleton]
  omega

theorem spec_lengths (hN : 0 < N) (seed label message : List U8) (k : Nat) (hs : seed.length = N)
    (hk : message.length + 2 * N + 2 ≤ k) :
    (Spec.Oaep.xor (Spec.Oaep.dataBlock h label message k) (Spec.Oaep.mgf1 h seed (k - N - 1))).length = k - N - 1 ∧
    (Spec.Oaep.xor seed (Spec.Oaep.mgf1 h (Spec.Oaep.xor (Spec.Oaep.dataBlock h label message k)
      (Spec.Oaep.mgf1 h seed (k - N - 1))) N)).length = N := by
  constructor
  · rw [length_xor _ _ (by rw [length_dataBlock _ _ _ hk, length_mgf1 hN]), length_dataBlock _ _ _ hk]
  · rw [length_xor _ _ (by rw [hs, length_mgf1 hN]), hs]

theorem length_encode (hN : 0 < N) (seed label message : List U8) (k : Nat) (hs : seed.length = N)
    (hk : message.length + 2 * N + 2 ≤ k) : (Spec.Oaep.encode h seed label message k).length = k := by
  obtain ⟨h1, h2⟩ := spec_lengths (h := h) hN seed label message k hs hk
  unfold Spec.Oaep.encode
  simp only [List.cons_append, List.length_cons, List.length_append, h1, h2]
  omega

theorem hash_counter (hh : ∀ m, m.length < bound → hash m = .ok (h m)) (s : List U8) (hs : s.length + 4 < bound) (c : Nat) :
    hash (s ++ natToBE 4 c) = .ok (h (s ++ natToBE 4 c)) := by
  apply hh
  rw [List.length_append, natToBE4]
  exact hs

theorem div_lim (hN : 0 < N) (len : Nat) (hl : len < 2 ^ 32) : (len + N - 1) / N < 2 ^ 32 := by
  by_contra hc
  have := (lt_ceil hN len len).2 (by omega)
  have := Nat.le_mul_of_pos_right len hN
  omega

theorem ceil_N (hN : 0 < N) : (N + N - 1) / N < 2 ^ 32 := by
  have : (N + N - 1) / N < 2 := by rw [Nat.div_lt_iff_lt_mul hN]; omega
  omega

theorem encode_ok (hh : ∀ m, m.length < bound → hash m = .ok (h m)) (hN : 0 < N) (label message : List U8) (k : Nat)
    (hk : message.length + 2 * N + 2 ≤ k) (hlabel : label.length < bound) (hkb : k + 4 ≤ bound) (hk63 : k < 2 ^ 62)
    (hlim : (k - N - 1 + N - 1) / N < 2 ^ 32) :
    encode hash label message k = .ok (Spec.Oaep.encode h (List.replicate N 42#8) label message k) := by
  obtain ⟨h1, h2⟩ := spec_lengths (h := h) hN (List.replicate N 42#8) label message k (by simp) hk
  have e1 := hh label hlabel
  have e2 : mgf1 hash (List.replicate N 42#8) (k - N - 1) =
      .ok (Spec.Oaep.mgf1 h (List.replicate N 42#8) (k - N - 1)) :=
    mgf1_ok (hash_counter hh _ (by rw [List.length_replicate]; omega)) hN _ hlim (by omega)
  have e3 : xorSlices ((h label).toList ++ List.replicate (k - (message.length + 2 * N + 2)) 0#8 ++ [1#8] ++ message)
      (Spec.Oaep.mgf1 h (List.replicate N 42#8) (k - N - 1)) =
      .ok (Spec.Oaep.xor (Spec.Oaep.dataBlock h label message k) (Spec.Oaep.mgf1 h (List.replicate N 42#8) (k - N - 1))) := by
    have e : (h label).toList ++ List.replicate (k - (message.length + 2 * N + 2)) 0#8 ++ [1#8] ++ message =
        Spec.Oaep.dataBlock h label message k := by
      unfold Spec.Oaep.dataBlock
      rw [show k - (message.length + 2 * N + 2) = k - message.length - 2 * N - 2 by omega]
    rw [e, xorSlices_ok _ _ (by rw [length_dataBlock _ _ _ hk, length_mgf1 hN])]
  have e4 := mgf1_ok (hash_counter hh (Spec.Oaep.xor (Spec.Oaep.dataBlock h label message k)
      (Spec.Oaep.mgf1 h (List.replicate N 42#8) (k - N - 1))) (by rw [h1]; omega)) hN N (ceil_N hN) (by omega)
  have e5 := xorSlices_ok (List.replicate N 42#8) (Spec.Oaep.mgf1 h (Spec.Oaep.xor (Spec.Oaep.dataBlock h label message k)
      (Spec.Oaep.mgf1 h (List.replicate N 42#8) (k - N - 1))) N) (by rw [length_mgf1 hN, List.length_replicate])
  unfold encode
  simp only [e1, bind, Except.bind]
  rw [if_neg (by omega)]
  simp only [Vector.toList_replicate, e2, e3, e4, e5, pure, Except.pure]
  rfl

theorem encode_panics (label message : List U8) (k : Nat) (d : Vector U8 N) (hd : hash label = .ok d)
    (hk : k < message.length + 2 * N + 2) : encode hash label message k = .error .explicit := by
  unfold encode
  simp only [hd, bind, Except.bind]
  rw [if_pos hk]
  rfl

/-- The data block that `decode` recovers from the part of the encoding behind the zero byte. -/
def unmask (h : List U8 → Vector U8 N) (ms mdb : List U8) : List U8 :=
  Spec.Oaep.xor mdb (Spec.Oaep.mgf1 h (Spec.Oaep.xor ms (Spec.Oaep.mgf1 h mdb N)) mdb.length)

theorem findIdx_dropWhile (l : List U8) :
    (l.findIdx? (· ≠ 0#8) = none ∧ l.dropWhile (· = 0#8) = []) ∨
    ∃ i b m, l.findIdx? (· ≠ 0#8) = some i ∧ l.dropWhile (· = 0#8) = b :: m ∧ l[i]? = some b ∧ l.drop (i + 1) = m ∧
      i < l.length := by
  induction l with
  | nil => exact Or.inl ⟨rfl, rfl⟩
  | cons a l ih =>
    by_cases ha : a = 0#8
    · subst ha
      rcases ih with ⟨h1, h2⟩ | ⟨i, b, m, h1, h2, h3, h4, h5⟩
      · exact Or.inl ⟨by rw [List.findIdx?_cons, h1]; simp, by simpa [List.dropWhile_cons] using h2⟩
      · refine Or.inr ⟨i + 1, b, m, by rw [List.findIdx?_cons, h1]; simp, by simpa [List.dropWhile_cons] using h2,
          by simpa using h3, by simpa using h4, by simpa using h5⟩
    · exact Or.inr ⟨0, a, l, by simp [List.findIdx?_cons, ha], by simp [ha], rfl, rfl, by simp⟩

theorem slice_ok (xs : List U8) (a b : Nat) (h1 : a ≤ b) (h2 : b ≤ xs.length) :
    slice xs a b = .ok ((xs.drop a).take (b - a)) := by
  unfold slice; rw [if_pos ⟨h1, h2⟩]

theorem slice_to_end (xs : List U8) (a : Nat) (h1 : a ≤ xs.length) : slice xs a xs.length = .ok (xs.drop a) := by
  rw [slice_ok _ _ _ h1 (Nat.le_refl _), List.take_of_length_le (by simp)]

theorem slice_err (xs : List U8) (a b : Nat) (h1 : ¬ (a ≤ b ∧ b ≤ xs.length)) : slice xs a b = .error .index := by
  unfold slice; rw [if_neg h1]

theorem decode_eq (hh : ∀ m, m.length < bound → hash m = .ok (h m)) (hN : 0 < N) (label ms mdb : List U8) (k : Nat)
    (hms : ms.length = N) (hmdb : mdb.length + N + 1 = k) (hlabel : label.length < bound) (hkb : k + 4 ≤ bound)
    (hk62 : k < 2 ^ 62) (hlim : (k - N - 1 + N - 1) / N < 2 ^ 32) :
    decode hash label (0#8 :: ms ++ mdb) k =
      if mdb.length < N then .error .index else .ok (parseDb (h label).toList (unmask h ms mdb)) := by
  have e0 : idx (0#8 :: ms ++ mdb) 0 = .ok 0#8 := rfl
  have e1 := hh label hlabel
  have e2 : slice (0#8 :: ms ++ mdb) 1 (N + 1) = .ok ms := by
    rw [slice_ok _ _ _ (by omega) (by simp [hms]), ← hms]
    simp
  have e3 : slice (0#8 :: ms ++ mdb) (N + 1) (0#8 :: ms ++ mdb).length = .ok mdb := by
    rw [slice_to_end _ _ (by simp [hms]), ← hms]
    simp
  have e4 := mgf1_ok (hash_counter hh mdb (by omega)) hN N (ceil_N hN) (by omega)
  have hl1 : ms.length = (Spec.Oaep.mgf1 h mdb N).length := by rw [length_mgf1 hN, hms]
  have e5 := xorSlices_ok ms (Spec.Oaep.mgf1 h mdb N) hl1
  have hl2 := length_xor ms (Spec.Oaep.mgf1 h mdb N) hl1
  have e6 : subU k N = .ok (k - N) := by unfold subU; rw [if_pos (by omega)]
  have e7 : subU (k - N) 1 = .ok (k - N - 1) := by unfold subU; rw [if_pos (by omega)]
  have e8 := mgf1_ok (hash_counter hh (Spec.Oaep.xor ms (Spec.Oaep.mgf1 h mdb N)) (by omega)) hN (k - N - 1) hlim (by omega)
  have hk1 : k - N - 1 = mdb.length := by omega
  have hl3 : mdb.length = (Spec.Oaep.mgf1 h (Spec.Oaep.xor ms (Spec.Oaep.mgf1 h mdb N)) (k - N - 1)).length := by
    rw [length_mgf1 hN, hk1]
  have e9 := xorSlices_ok mdb _ hl3
  have hl4 := length_xor mdb _ hl3
  rw [hk1] at e9 hl4 e7 e8
  generalize hdb : Spec.Oaep.xor mdb (Spec.Oaep.mgf1 h (Spec.Oaep.xor ms (Spec.Oaep.mgf1 h mdb N)) mdb.length) = db at e9 hl4
  have hu : unmask h ms mdb = db := hdb
  rw [hu]
  unfold decode
  simp only [e0, bind, Except.bind]
  rw [if_neg (by simp)]
  simp only [e1, e2, e3, e4, e5, e6, e7, e8, e9]
  by_cases hshort : mdb.length < N
  · rw [if_pos hshort, slice_err _ _ _ (by omega)]
  · rw [if_neg hshort, slice_ok _ _ _ (Nat.zero_le _) (by omega)]
    simp only [List.drop_zero, Nat.sub_zero]
    unfold parseDb
    rw [Vector.length_toList]
    by_cases hw : db.take N = (h label).toList
    · rw [if_neg (by simpa using hw), if_neg (by simpa using hw), slice_to_end _ _ (by omega)]
      simp only
      rcases findIdx_dropWhile (db.drop N) with ⟨h1, h2⟩ | ⟨i, b, m, h1, h2, h3, h4, h5⟩
      · rw [h1, h2]
        rfl
      · rw [h1, h2]
        have e10 : idx (db.drop N) i = .ok b := by unfold idx; rw [h3]
        simp only [e10]
        by_cases hb : b = 1#8
        · rw [if_neg (by simpa using hb), if_pos hb, slice_to_end _ _ (by omega), h4]
          rfl
        · rw [if_pos hb, if_neg hb]
          rfl
    · rw [if_pos hw, if_pos hw]
      rfl

/-- Everything of the right length behind a zero byte unmasks to a data block. -/
theorem encode_unmask (hN : 0 < N) (label ms mdb m : List U8) (k : Nat) (hms : ms.length = N)
    (hmdb : mdb.length + N + 1 = k) :
    parseDb (h label).toList (unmask h ms mdb) = .ok m ↔
      ∃ seed, seed.length = N ∧ m.length + 2 * N + 2 ≤ k ∧ 0#8 :: ms ++ mdb = Spec.Oaep.encode h seed label m k := by
  have hk1 : k - N - 1 = mdb.length := by omega
  have hl1 : ms.length = (Spec.Oaep.mgf1 h mdb N).length := by rw [length_mgf1 hN, hms]
  have hl3 : mdb.length = (Spec.Oaep.mgf1 h (Spec.Oaep.xor ms (Spec.Oaep.mgf1 h mdb N)) mdb.length).length := by
    rw [length_mgf1 hN]
  rw [parseDb_ok]
  constructor
  · rintro ⟨j, hj⟩
    have hlen := congrArg List.length hj
    rw [show (unmask h ms mdb).length = mdb.length from length_xor _ _ hl3] at hlen
    simp only [List.length_append, Vector.length_toList, List.length_replicate, List.length_singleton] at hlen
    have hdb : Spec.Oaep.dataBlock h label m k = unmask h ms mdb := by
      rw [hj]
      unfold Spec.Oaep.dataBlock
      rw [show k - m.length - 2 * N - 2 = j by omega]
    refine ⟨Spec.Oaep.xor ms (Spec.Oaep.mgf1 h mdb N), by rw [length_xor _ _ hl1, hms], by omega, ?_⟩
    unfold Spec.Oaep.encode
    rw [hdb, hk1]
    unfold unmask
    rw [xor_xor _ _ hl3]
    simp only [xor_xor _ _ hl1]
  · rintro ⟨seed, hs, hlen, heq⟩
    obtain ⟨h1, h2⟩ := spec_lengths (h := h) hN seed label m k hs hlen
    unfold Spec.Oaep.encode at heq
    simp only [List.cons_append, List.cons.injEq, true_and] at heq
    obtain ⟨g1, g2⟩ := List.append_inj heq (by rw [h2, hms])
    refine ⟨k - m.length - 2 * N - 2, ?_⟩
    have hs' : Spec.Oaep.xor ms (Spec.Oaep.mgf1 h mdb N) = seed := by
      rw [g1, g2, xor_xor _ _ (by rw [length_mgf1 hN, hs])]
    unfold unmask
    rw [hs', ← hk1]
    rw [g2, xor_xor _ _ (by rw [length_mgf1 hN, length_dataBlock _ _ _ hlen])]
    rfl

theorem split_em (em : List U8) (n : Nat) (hl : n + 1 ≤ em.length) :
    ∃ b ms mdb, em = b :: ms ++ mdb ∧ ms.length = n ∧ mdb.length + n + 1 = em.length := by
  cases em with
  | nil => simp at hl
  | cons b l =>
    simp only [List.length_cons] at hl
    exact ⟨b, l.take n, l.drop n, by simp, by simp; omega, by simp; omega⟩

theorem decode_first_byte (label em : List U8) (k : Nat) (b : U8) (l : List U8) (he : em = b :: l) (hb : b ≠ 0#8) :
    decode hash label em k = .ok (.error .firstByteNotZero) := by
  subst he
  unfold decode
  have e : idx (b :: l) 0 = .ok b := rfl
  simp only [e, bind, Except.bind]
  rw [if_pos hb]
  rfl

theorem decode_short (label em : List U8) (k : Nat) (l : List U8) (he : em = 0#8 :: l) (d : Vector U8 N)
    (hd : hash label = .ok d) (hl : em.length < N + 1) : decode hash label em k = .error .index := by
  unfold decode
  have e : idx em 0 = .ok 0#8 := by rw [he]; rfl
  simp only [e, bind, Except.bind]
  rw [if_neg (by simp)]
  simp only [hd, slice_err em 1 (N + 1) (by omega)]

theorem decode_mismatch (hh : ∀ m, m.length < bound → hash m = .ok (h m)) (hN : 0 < N) (label ms mdb : List U8) (k : Nat)
    (hms : ms.length = N) (hmdb : mdb.length + N + 1 ≠ k) (hlabel : label.length < bound) (hkb : k + 4 ≤ bound)
    (hk62 : k < 2 ^ 62) (hlim : (k - N - 1 + N - 1) / N < 2 ^ 32) (hemb : mdb.length + N + 5 ≤ bound)
    (hNb : 2 * N < 2 ^ 62 ∧ N + 4 < bound) :
    ∃ p, decode hash label (0#8 :: ms ++ mdb) k = .error p := by
  have e0 : idx (0#8 :: ms ++ mdb) 0 = .ok 0#8 := rfl
  have e1 := hh label hlabel
  have e2 : slice (0#8 :: ms ++ mdb) 1 (N + 1) = .ok ms := by
    rw [slice_ok _ _ _ (by omega) (by simp [hms]), ← hms]
    simp
  have e3 : slice (0#8 :: ms ++ mdb) (N + 1) (0#8 :: ms ++ mdb).length = .ok mdb := by
    rw [slice_to_end _ _ (by simp [hms]), ← hms]
    simp
  have e4 := mgf1_ok (hash_counter hh mdb (by omega)) hN N (ceil_N hN) (by omega)
  have hl1 : ms.length = (Spec.Oaep.mgf1 h mdb N).length := by rw [length_mgf1 hN, hms]
  have e5 := xorSlices_ok ms (Spec.Oaep.mgf1 h mdb N) hl1
  have hl2 := length_xor ms (Spec.Oaep.mgf1 h mdb N) hl1
  have e6 : subU k N = if N ≤ k then .ok (k - N) else .error .overflow := rfl
  unfold decode
  simp only [e0, bind, Except.bind]
  rw [if_neg (by simp)]
  simp only [e1, e2, e3, e4, e5, e6]
  by_cases hkN : N ≤ k
  · rw [if_pos hkN]
    have e7 : subU (k - N) 1 = if 1 ≤ k - N then .ok (k - N - 1) else .error .overflow := rfl
    simp only [e7]
    by_cases hk1 : 1 ≤ k - N
    · rw [if_pos hk1]
      have e8 := mgf1_ok (hash_counter hh (Spec.Oaep.xor ms (Spec.Oaep.mgf1 h mdb N)) (by omega)) hN (k - N - 1) hlim
        (by omega)
      simp only [e8]
      rw [xorSlices_panics _ _ (by rw [length_mgf1 hN]; omega)]
      exact ⟨_, rfl⟩
    · rw [if_neg hk1]
      exact ⟨_, rfl⟩
  · rw [if_neg hkN]
    exact ⟨_, rfl⟩

theorem decode_panics_iff (hh : ∀ m, m.length < bound → hash m = .ok (h m)) (hN : 0 < N) (label em : List U8) (k : Nat)
    (hlabel : label.length < bound) (hkb : k + 4 ≤ bound) (hk62 : k < 2 ^ 62)
    (hlim : (k - N - 1 + N - 1) / N < 2 ^ 32) (hemb : em.length + 4 ≤ bound) (hNb : 2 * N < 2 ^ 62 ∧ N + 4 < bound) :
    (∃ p, decode hash label em k = .error p) ↔
      em = [] ∨ (em.head? = some 0#8 ∧ (em.length < 2 * N + 1 ∨ em.length ≠ k)) := by
  rcases em with _ | ⟨b, l⟩
  · simp only [true_or, iff_true]
    exact ⟨.index, rfl⟩
  by_cases hb : b = 0#8
  · subst hb
    simp only [reduceCtorEq, List.head?_cons, true_and, false_or]
    by_cases hl : (0#8 :: l).length < N + 1
    · rw [decode_short label _ k l rfl _ (hh label hlabel) hl]
      exact ⟨fun _ => Or.inl (by omega), fun _ => ⟨_, rfl⟩⟩
    · obtain ⟨b', ms, mdb, he, hms, hmdb⟩ := split_em (0#8 :: l) N (by omega)
      have hb' : b' = 0#8 := by
        rw [List.cons_append] at he
        injection he with he
        exact he.symm
      subst hb'
      rw [he] at hmdb hemb ⊢
      by_cases hk : mdb.length + N + 1 = k
      · rw [decode_eq hh hN label ms mdb k hms hk hlabel hkb hk62 hlim]
        by_cases hsm : mdb.length < N
        · rw [if_pos hsm]
          exact ⟨fun _ => Or.inl (by omega), fun _ => ⟨_, rfl⟩⟩
        · rw [if_neg hsm]
          constructor
          · rintro ⟨p, hp⟩
            cases hp
          · intro h'
            omega
      · obtain ⟨p, hp⟩ := decode_mismatch hh hN label ms mdb k hms hk hlabel hkb hk62 hlim (by omega) hNb
        exact ⟨fun _ => Or.inr (by omega), fun _ => ⟨p, hp⟩⟩
  · rw [decode_first_byte label _ k b l rfl hb]
    constructor
    · rintro ⟨p, hp⟩
      cases hp
    · simp [hb]

theorem encode_inj (hN : 0 < N) (seed seed' label label' m m' : List U8) (k : Nat) (hs : seed.length = N)
    (hs' : seed'.length = N) (hk : m.length + 2 * N + 2 ≤ k) (hk' : m'.length + 2 * N + 2 ≤ k)
    (he : Spec.Oaep.encode h seed label m k = Spec.Oaep.encode h seed' label' m' k) :
    seed = seed' ∧ h label = h label' ∧ m = m' := by
  obtain ⟨a1, a2⟩ := spec_lengths (h := h) hN seed label m k hs hk
  obtain ⟨b1, b2⟩ := spec_lengths (h := h) hN seed' label' m' k hs' hk'
  unfold Spec.Oaep.encode at he
  simp only [List.cons_append, List.cons.injEq, true_and] at he
  obtain ⟨g1, g2⟩ := List.append_inj he (by rw [a2, b2])
  rw [← g2] at g1
  have hseed : seed = seed' := xor_cancel _ _ _ (by rw [length_mgf1 hN, hs]) (by rw [length_mgf1 hN, hs']) g1
  subst hseed
  have hdb : Spec.Oaep.dataBlock h label m k = Spec.Oaep.dataBlock h label' m' k := by
    rw [← xor_xor (Spec.Oaep.dataBlock h label m k) (Spec.Oaep.mgf1 h seed (k - N - 1))
      (by rw [length_mgf1 hN, length_dataBlock _ _ _ hk]), g2,
      xor_xor _ _ (by rw [length_mgf1 hN, length_dataBlock _ _ _ hk'])]
  have p1 : parseDb (h label).toList (Spec.Oaep.dataBlock h label m k) = .ok m := (parseDb_ok _ _ _).2 ⟨_, rfl⟩
  have hh1 : (h label).toList = (h label').toList := by
    have e := hdb
    unfold Spec.Oaep.dataBlock at e
    simp only [List.append_assoc] at e
    exact (List.append_inj e (by simp)).1
  have p2 : parseDb (h label).toList (Spec.Oaep.dataBlock h label' m' k) = .ok m' := (parseDb_ok _ _ _).2 ⟨_, by rw [hh1]; rfl⟩
  rw [hdb, p2] at p1
  injection p1 with p1
  exact ⟨rfl, Vector.toList_inj.1 hh1, p1.symm⟩

end Oaep

end Verif.Model.Oaep
