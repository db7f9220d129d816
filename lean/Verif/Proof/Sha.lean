import Verif.Proof.ShaPad
import Verif.Proof.ShaConst

/-! # The SHA compression functions are those of FIPS 180-4 -/

namespace Verif.Model.Sha
open Verif
open Verif.Spec.Sha (Ch Maj Parity Five Eight Family word)

theorem ch_or {n : Nat} (x y z : BitVec n) : (x &&& y) ||| (~~~x &&& z) = Ch x y z := by
  unfold Ch
  apply BitVec.eq_of_getLsbD_eq
  intro i hi
  simp only [BitVec.getLsbD_or, BitVec.getLsbD_and, BitVec.getLsbD_xor, BitVec.getLsbD_not]
  cases x.getLsbD i <;> cases y.getLsbD i <;> cases z.getLsbD i <;> simp [hi]

theorem maj_or {n : Nat} (x y z : BitVec n) : (x &&& y) ||| (x &&& z) ||| (y &&& z) = Maj x y z := by
  unfold Maj
  apply BitVec.eq_of_getLsbD_eq
  intro i hi
  simp only [BitVec.getLsbD_or, BitVec.getLsbD_and, BitVec.getLsbD_xor]
  cases x.getLsbD i <;> cases y.getLsbD i <;> cases z.getLsbD i <;> rfl

/-! ## Words of the blocks -/

theorem take4_drop {α : Type} (p : List α) (o : Nat) (h : o + 3 < p.length) :
    (p.drop o).take 4 = [p[o], p[o + 1], p[o + 2], p[o + 3]] := by
  apply List.ext_getElem
  · simp; omega
  · intro i h1 h2
    rcases i with _ | _ | _ | _ | i
    all_goals first | (simp at h2; omega) | simp

theorem take8_drop {α : Type} (p : List α) (o : Nat) (h : o + 7 < p.length) :
    (p.drop o).take 8 = [p[o], p[o + 1], p[o + 2], p[o + 3], p[o + 4], p[o + 5], p[o + 6], p[o + 7]] := by
  apply List.ext_getElem
  · simp; omega
  · intro i h1 h2
    rcases i with _ | _ | _ | _ | _ | _ | _ | _ | i
    all_goals first | (simp at h2; omega) | simp

theorem word32_of (a b c d : U8) : BitVec.ofNat 32 (beVal [a, b, c, d]) = beU32 a b c d := by
  apply BitVec.eq_of_toNat_eq
  rw [beU32_toNat, BitVec.toNat_ofNat]
  have := a.isLt; have := b.isLt; have := c.isLt; have := d.isLt
  simp only [beVal, List.reverse_cons, List.reverse_nil, List.nil_append, List.cons_append, leVal]
  omega

theorem beU64_toNat (a b c d e f g h : U8) : (beU64 a b c d e f g h).toNat =
    beVal [a, b, c, d, e, f, g, h] := by
  simp only [beU64, toNat_append8, beVal, List.reverse_cons, List.reverse_nil, List.nil_append, List.cons_append, leVal]
  omega

theorem word64_of (a b c d e f g h : U8) :
    BitVec.ofNat 64 (beVal [a, b, c, d, e, f, g, h]) = beU64 a b c d e f g h := by
  rw [← beU64_toNat, BitVec.ofNat_toNat, BitVec.setWidth_eq]

theorem getElem_blocks {n : Nat} (bs : List (Vector U8 n)) (i j : Nat) (hi : i < bs.length) (hj : j < n)
    (h : n * i + j < (bs.flatMap Vector.toList).length) : (bs.flatMap Vector.toList)[n * i + j] = bs[i][j] := by
  have := getElem_flatMap_toList bs [] i j hi hj (by simpa [Nat.mul_comm] using h)
  simpa [Nat.mul_comm n i] using this

theorem blocks_lt {n : Nat} (bs : List (Vector U8 n)) (i j : Nat) (hi : i < bs.length) (hj : j < n) :
    n * i + j < (bs.flatMap Vector.toList).length := by
  rw [length_flatMap_toList]
  have : n * (i + 1) ≤ n * bs.length := Nat.mul_le_mul_left n hi
  rw [Nat.mul_comm bs.length]
  rw [Nat.mul_add] at this
  omega

theorem word32_block (bs : List (Vector U8 64)) (i t : Nat) (hi : i < bs.length) (ht : t < 16) :
    word 32 (bs.flatMap Vector.toList) (64 * i + 4 * t) =
      beU32 bs[i][4 * t] bs[i][4 * t + 1] bs[i][4 * t + 2] bs[i][4 * t + 3] := by
  have h := blocks_lt bs i (4 * t + 3) hi (by omega)
  unfold word
  rw [show 32 / 8 = 4 from rfl, take4_drop _ _ (by omega), word32_of,
    getElem_blocks bs i (4 * t) hi (by omega)]
  simp only [Nat.add_assoc]
  rw [getElem_blocks bs i (4 * t + 1) hi (by omega), getElem_blocks bs i (4 * t + 2) hi (by omega),
    getElem_blocks bs i (4 * t + 3) hi (by omega)]

theorem word64_block (bs : List (Vector U8 128)) (i t : Nat) (hi : i < bs.length) (ht : t < 16) :
    word 64 (bs.flatMap Vector.toList) (128 * i + 8 * t) =
      beU64 bs[i][8 * t] bs[i][8 * t + 1] bs[i][8 * t + 2] bs[i][8 * t + 3]
        bs[i][8 * t + 4] bs[i][8 * t + 5] bs[i][8 * t + 6] bs[i][8 * t + 7] := by
  have h := blocks_lt bs i (8 * t + 7) hi (by omega)
  unfold word
  rw [show 64 / 8 = 8 from rfl, take8_drop _ _ (by omega), word64_of,
    getElem_blocks bs i (8 * t) hi (by omega)]
  simp only [Nat.add_assoc]
  rw [getElem_blocks bs i (8 * t + 1) hi (by omega), getElem_blocks bs i (8 * t + 2) hi (by omega),
    getElem_blocks bs i (8 * t + 3) hi (by omega), getElem_blocks bs i (8 * t + 4) hi (by omega),
    getElem_blocks bs i (8 * t + 5) hi (by omega), getElem_blocks bs i (8 * t + 6) hi (by omega),
    getElem_blocks bs i (8 * t + 7) hi (by omega)]

/-- A loop over the blocks against a recursion over the block number. -/
theorem foldl_blocks {S T B : Type} (f : S → B → S) (conv : S → T) (H : Nat → T) (s : S) (bs : List B)
    (h0 : conv s = H 0) (hs : ∀ i (hi : i < bs.length) s, conv s = H i → conv (f s bs[i]) = H (i + 1)) :
    conv (bs.foldl f s) = H bs.length := by
  have : ∀ i, i ≤ bs.length → conv ((bs.take i).foldl f s) = H i := by
    intro i
    induction i with
    | zero => intro _; simpa using h0
    | succ i ih =>
      intro hi
      rw [List.take_succ_eq_append_getElem hi, List.foldl_append, List.foldl_cons, List.foldl_nil]
      exact hs i hi _ (ih (by omega))
  simpa using this bs.length (Nat.le_refl _)

/-- The first loop of each message schedule. -/
theorem fill_loop {n N : Nat} (g : (i : Nat) → i < 16 → BitVec n) (hN : 16 ≤ N) (M : Nat → BitVec n)
    (hM : ∀ i (hi : i < 16), M i = g i hi) (k : Nat) (hk : k ≤ 16) (w : Vector (BitVec n) N) (j : Nat) (hj : j < k) :
    (Nat.fold k (fun i hi (w : Vector (BitVec n) N) => w.set i (g i (by omega))) w)[j]'(by omega) = M j := by
  induction k with
  | zero => omega
  | succ k ih =>
    rw [Nat.fold_succ, Vector.getElem_set]
    split
    · next h => subst h; exact (hM _ _).symm
    · exact ih (by omega) (by omega)

/-- The second loop of each message schedule. -/
theorem extend_loop {n N K : Nat} (hN : 16 + K = N)
    (step : (j : Nat) → j < K → Vector (BitVec n) N → BitVec n) (W : Nat → BitVec n)
    (hstep : ∀ j (hj : j < K) w, (∀ i (_ : i < 16 + j), w[i] = W i) → step j hj w = W (16 + j))
    (k : Nat) (hk : k ≤ K) (w : Vector (BitVec n) N) (h0 : ∀ i (_ : i < 16), w[i] = W i) :
    ∀ i (_ : i < 16 + k),
      (Nat.fold k (fun j hj (w : Vector (BitVec n) N) => w.set (16 + j) (step j (by omega) w)) w)[i] = W i := by
  induction k with
  | zero => simpa using h0
  | succ k ih =>
    intro i hi
    rw [Nat.fold_succ, Vector.getElem_set]
    split
    · next h => subst h; exact hstep k _ _ (ih (by omega) h0)
    · exact ih (by omega) h0 i (by omega)

/-! ## SHA-1 -/

/-- Model state to specification state. -/
def five (v : Vector U32 5) : Five := ⟨v[0], v[1], v[2], v[3], v[4]⟩

theorem sha1Schedule_eq (chunk : Vector U8 64) (M : Nat → U32)
    (hM : ∀ t (ht : t < 16), M t = beU32 chunk[4 * t] chunk[4 * t + 1] chunk[4 * t + 2] chunk[4 * t + 3])
    (i : Nat) (hi : i < 80) : (sha1Schedule chunk)[i] = Spec.Sha.sha1W M i := by
  unfold sha1Schedule
  refine extend_loop (K := 64) rfl (fun j hj w => (w[16 + j - 3] ^^^ w[16 + j - 8] ^^^ w[16 + j - 14] ^^^
    w[16 + j - 16]).rotateLeft 1) (Spec.Sha.sha1W M) ?_ 64 (Nat.le_refl _) _ ?_ i hi
  · intro j hj w h
    rw [Spec.Sha.sha1W, if_neg (by omega)]
    rw [h _ (by omega), h _ (by omega), h _ (by omega), h _ (by omega)]
  · intro i hi
    rw [Spec.Sha.sha1W, if_pos hi]
    exact fill_loop (fun t ht => beU32 chunk[4 * t] chunk[4 * t + 1] chunk[4 * t + 2] chunk[4 * t + 3])
      (by omega) M hM 16 (Nat.le_refl _) _ i hi

def ofRegs5 (s : Regs5) : Five := ⟨s.a, s.b, s.c, s.d, s.e⟩

theorem sha1Round_eq (t : Nat) (w : U32) (s : Regs5) : ofRegs5 (sha1Round t w s) =
    ⟨s.a.rotateLeft 5 + Spec.Sha.sha1F t s.b s.c s.d + s.e + Spec.Sha.sha1K t + w, s.a, s.b.rotateLeft 30, s.c, s.d⟩ := by
  unfold sha1Round Spec.Sha.sha1F Spec.Sha.sha1K ofRegs5
  by_cases h1 : t < 20
  · simp only [if_pos h1, if_pos (show t ≤ 19 by omega), ch_or]
  · by_cases h2 : t < 40
    · simp only [if_neg h1, if_neg (show ¬ t ≤ 19 by omega), if_pos h2, if_pos (show t ≤ 39 by omega), Parity]
    · by_cases h3 : t < 60
      · simp only [if_neg h1, if_neg (show ¬ t ≤ 19 by omega), if_neg h2, if_neg (show ¬ t ≤ 39 by omega),
          if_pos h3, if_pos (show t ≤ 59 by omega), maj_or]
      · simp only [if_neg h1, if_neg (show ¬ t ≤ 19 by omega), if_neg h2, if_neg (show ¬ t ≤ 39 by omega),
          if_neg h3, if_neg (show ¬ t ≤ 59 by omega), Parity]

theorem sha1_rounds (w : Vector U32 80) (W : Nat → U32) (hw : ∀ i (_ : i < 80), w[i] = W i) (s : Regs5)
    (k : Nat) (hk : k ≤ 80) :
    ofRegs5 (Nat.fold k (fun i hi s => sha1Round i (w[i]'(by omega)) s) s) = Spec.Sha.sha1Rounds W (ofRegs5 s) k := by
  induction k with
  | zero => rfl
  | succ k ih =>
    rw [Nat.fold_succ, sha1Round_eq, Spec.Sha.sha1Rounds, ← ih (by omega), hw]
    rfl

theorem sha1Chunk_eq (h : Vector U32 5) (chunk : Vector U8 64) (M : Nat → U32)
    (hM : ∀ t (ht : t < 16), M t = beU32 chunk[4 * t] chunk[4 * t + 1] chunk[4 * t + 2] chunk[4 * t + 3]) :
    five (sha1Chunk h chunk) = Spec.Sha.sha1Compress (five h) M := by
  have hr := sha1_rounds (sha1Schedule chunk) (Spec.Sha.sha1W M) (sha1Schedule_eq chunk M hM)
    ⟨h[0], h[1], h[2], h[3], h[4]⟩ 80 (Nat.le_refl _)
  unfold sha1Chunk Spec.Sha.sha1Compress
  have hf : five h = ofRegs5 ⟨h[0], h[1], h[2], h[3], h[4]⟩ := rfl
  rw [hf, ← hr]
  simp only [five, ofRegs5, BitVec.add_comm]
  rfl

theorem sha1_hash_blocks (bs : List (Vector U8 64)) :
    five (bs.foldl sha1Chunk sha1Init) = Spec.Sha.sha1Hash (bs.flatMap Vector.toList) bs.length := by
  refine foldl_blocks sha1Chunk five (Spec.Sha.sha1Hash (bs.flatMap Vector.toList)) sha1Init bs rfl ?_
  intro i hi s hs
  rw [Spec.Sha.sha1Hash, ← hs]
  exact sha1Chunk_eq s bs[i] _ fun t ht => word32_block bs i t hi ht

theorem foldl_opt {S B : Type} (f : S → B → S) (s : S) (bs : List B) (last : B) (extra : Option B) :
    (match extra with
      | some e => f (f (bs.foldl f s) last) e
      | none => f (bs.foldl f s) last) = (bs ++ last :: extra.toList).foldl f s := by
  cases extra <;> simp

theorem sha1_eq (m : List U8) (hm : m.length < 2 ^ 61) :
    ∃ d, sha1 m = .ok d ∧ d.toList = Spec.Sha.sha1 m := by
  obtain ⟨last, extra, hp, hb⟩ := blocks64 m hm
  have hlen : (Spec.Sha.pad 64 8 m).length / 64 = (chunksExact 64 m ++ last :: extra.toList).length := by
    rw [← hb, length_flatMap_toList, Nat.mul_div_cancel _ (by omega)]
  have hh := sha1_hash_blocks (chunksExact 64 m ++ last :: extra.toList)
  obtain ⟨d, hd, ed⟩ := u32sToBytes_ok (B := 20) rfl ((chunksExact 64 m ++ last :: extra.toList).foldl sha1Chunk sha1Init)
  refine ⟨d, ?_, ?_⟩
  · unfold sha1
    simp only [hp, bind, Except.bind]
    rw [← hd, ← foldl_opt]
    cases extra <;> rfl
  · rw [ed]
    unfold Spec.Sha.sha1
    simp only
    rw [hlen, ← hb, ← hh]
    congr 1
    generalize (chunksExact 64 m ++ last :: extra.toList).foldl sha1Chunk sha1Init = v
    apply List.ext_getElem
    · simp
    · intro i h1 h2
      rcases i with _ | _ | _ | _ | _ | i
      all_goals first | (simp at h2; omega) | simp [five]

/-! ## SHA-2 -/

def eight {n : Nat} (v : Vector (BitVec n) 8) : Eight n := ⟨v[0], v[1], v[2], v[3], v[4], v[5], v[6], v[7]⟩

def ofRegs8 {n : Nat} (s : Regs8 n) : Eight n := ⟨s.a, s.b, s.c, s.d, s.e, s.f, s.g, s.h⟩

theorem add_perm {n : Nat} (a b c d : BitVec n) : a + b + c + d = d + c + b + a := by
  rw [BitVec.add_comm (a + b + c), BitVec.add_comm (a + b), BitVec.add_comm a b, ← BitVec.add_assoc, ← BitVec.add_assoc]

theorem sha256Schedule_eq (chunk : Vector U8 64) (M : Nat → U32)
    (hM : ∀ t (ht : t < 16), M t = beU32 chunk[4 * t] chunk[4 * t + 1] chunk[4 * t + 2] chunk[4 * t + 3])
    (i : Nat) (hi : i < 64) : (sha256Schedule chunk)[i] = Spec.Sha.sha2W Spec.Sha.family32 M i := by
  unfold sha256Schedule
  refine extend_loop (K := 48) rfl (fun j hj w => w[16 + j - 16] +
      ((w[16 + j - 15]).rotateRight 7 ^^^ (w[16 + j - 15]).rotateRight 18 ^^^ (w[16 + j - 15] >>> 3)) +
      w[16 + j - 7] +
      ((w[16 + j - 2]).rotateRight 17 ^^^ (w[16 + j - 2]).rotateRight 19 ^^^ (w[16 + j - 2] >>> 10)))
    (Spec.Sha.sha2W Spec.Sha.family32 M) ?_ 48 (Nat.le_refl _) _ ?_ i hi
  · intro j hj w h
    rw [Spec.Sha.sha2W, if_neg (by omega), add_perm]
    rw [h (16 + j - 16) (by omega), h (16 + j - 15) (by omega), h (16 + j - 7) (by omega), h (16 + j - 2) (by omega)]
    rfl
  · intro i hi
    rw [Spec.Sha.sha2W, if_pos hi]
    exact fill_loop (fun t ht => beU32 chunk[4 * t] chunk[4 * t + 1] chunk[4 * t + 2] chunk[4 * t + 3])
      (by omega) M hM 16 (Nat.le_refl _) _ i hi

theorem sha512Schedule_eq (chunk : Vector U8 128) (M : Nat → U64)
    (hM : ∀ t (ht : t < 16), M t = beU64 chunk[8 * t] chunk[8 * t + 1] chunk[8 * t + 2] chunk[8 * t + 3]
      chunk[8 * t + 4] chunk[8 * t + 5] chunk[8 * t + 6] chunk[8 * t + 7])
    (i : Nat) (hi : i < 80) : (sha512Schedule chunk)[i] = Spec.Sha.sha2W Spec.Sha.family64 M i := by
  unfold sha512Schedule
  refine extend_loop (K := 64) rfl (fun j hj w => w[16 + j - 16] +
      ((w[16 + j - 15]).rotateRight 1 ^^^ (w[16 + j - 15]).rotateRight 8 ^^^ (w[16 + j - 15] >>> 7)) +
      w[16 + j - 7] +
      ((w[16 + j - 2]).rotateRight 19 ^^^ (w[16 + j - 2]).rotateRight 61 ^^^ (w[16 + j - 2] >>> 6)))
    (Spec.Sha.sha2W Spec.Sha.family64 M) ?_ 64 (Nat.le_refl _) _ ?_ i hi
  · intro j hj w h
    rw [Spec.Sha.sha2W, if_neg (by omega), add_perm]
    rw [h (16 + j - 16) (by omega), h (16 + j - 15) (by omega), h (16 + j - 7) (by omega), h (16 + j - 2) (by omega)]
    rfl
  · intro i hi
    rw [Spec.Sha.sha2W, if_pos hi]
    exact fill_loop (fun t ht => beU64 chunk[8 * t] chunk[8 * t + 1] chunk[8 * t + 2] chunk[8 * t + 3]
      chunk[8 * t + 4] chunk[8 * t + 5] chunk[8 * t + 6] chunk[8 * t + 7])
      (by omega) M hM 16 (Nat.le_refl _) _ i hi

theorem sha256_rounds (w : Vector U32 64) (W : Nat → U32) (hw : ∀ i (_ : i < 64), w[i] = W i) (s : Regs8 32)
    (k : Nat) (hk : k ≤ 64) :
    ofRegs8 (Nat.fold k (fun i hi s => sha256Round (ROUND_CONSTANTS[i]'(by omega)) (w[i]'(by omega)) s) s) =
      Spec.Sha.sha2Rounds Spec.Sha.family32 W (ofRegs8 s) k := by
  induction k with
  | zero => rfl
  | succ k ih =>
    rw [Nat.fold_succ, Spec.Sha.sha2Rounds, ← ih (by omega), hw, roundConstants_eq]
    rfl

theorem sha512_rounds (w : Vector U64 80) (W : Nat → U64) (hw : ∀ i (_ : i < 80), w[i] = W i) (s : Regs8 64)
    (k : Nat) (hk : k ≤ 80) :
    ofRegs8 (Nat.fold k (fun i hi s => sha512Round (ROUND_CONSTANTS_BIG[i]'(by omega)) (w[i]'(by omega)) s) s) =
      Spec.Sha.sha2Rounds Spec.Sha.family64 W (ofRegs8 s) k := by
  induction k with
  | zero => rfl
  | succ k ih =>
    rw [Nat.fold_succ, Spec.Sha.sha2Rounds, ← ih (by omega), hw, roundConstantsBig_eq]
    rfl

theorem final8 {n : Nat} (h : Vector (BitVec n) 8) (s : Regs8 n) (r : Eight n) (e : ofRegs8 s = r) :
    eight #v[h[0] + s.a, h[1] + s.b, h[2] + s.c, h[3] + s.d, h[4] + s.e, h[5] + s.f, h[6] + s.g, h[7] + s.h] =
      ⟨r.a + (eight h).a, r.b + (eight h).b, r.c + (eight h).c, r.d + (eight h).d, r.e + (eight h).e,
        r.f + (eight h).f, r.g + (eight h).g, r.h + (eight h).h⟩ := by
  subst e
  simp [eight, ofRegs8, BitVec.add_comm]

theorem sha256Chunk_eq (h : Vector U32 8) (chunk : Vector U8 64) (M : Nat → U32)
    (hM : ∀ t (ht : t < 16), M t = beU32 chunk[4 * t] chunk[4 * t + 1] chunk[4 * t + 2] chunk[4 * t + 3]) :
    eight (sha256Chunk h chunk) = Spec.Sha.sha2Compress Spec.Sha.family32 (eight h) M := by
  have hr := sha256_rounds (sha256Schedule chunk) (Spec.Sha.sha2W Spec.Sha.family32 M) (sha256Schedule_eq chunk M hM)
    ⟨h[0], h[1], h[2], h[3], h[4], h[5], h[6], h[7]⟩ 64 (Nat.le_refl _)
  exact final8 h _ _ hr

theorem sha512Chunk_eq (h : Vector U64 8) (chunk : Vector U8 128) (M : Nat → U64)
    (hM : ∀ t (ht : t < 16), M t = beU64 chunk[8 * t] chunk[8 * t + 1] chunk[8 * t + 2] chunk[8 * t + 3]
      chunk[8 * t + 4] chunk[8 * t + 5] chunk[8 * t + 6] chunk[8 * t + 7]) :
    eight (sha512Chunk h chunk) = Spec.Sha.sha2Compress Spec.Sha.family64 (eight h) M := by
  have hr := sha512_rounds (sha512Schedule chunk) (Spec.Sha.sha2W Spec.Sha.family64 M) (sha512Schedule_eq chunk M hM)
    ⟨h[0], h[1], h[2], h[3], h[4], h[5], h[6], h[7]⟩ 80 (Nat.le_refl _)
  exact final8 h _ _ hr

theorem sha256_hash_blocks (init : Vector U32 8) (bs : List (Vector U8 64)) :
    eight (bs.foldl sha256Chunk init) =
      Spec.Sha.sha2Hash Spec.Sha.family32 (eight init) (bs.flatMap Vector.toList) bs.length := by
  refine foldl_blocks sha256Chunk eight (Spec.Sha.sha2Hash _ (eight init) (bs.flatMap Vector.toList)) init bs rfl ?_
  intro i hi s hs
  rw [Spec.Sha.sha2Hash, ← hs]
  exact sha256Chunk_eq s bs[i] _ fun t ht => word32_block bs i t hi ht

theorem sha512_hash_blocks (init : Vector U64 8) (bs : List (Vector U8 128)) :
    eight (bs.foldl sha512Chunk init) =
      Spec.Sha.sha2Hash Spec.Sha.family64 (eight init) (bs.flatMap Vector.toList) bs.length := by
  refine foldl_blocks sha512Chunk eight (Spec.Sha.sha2Hash _ (eight init) (bs.flatMap Vector.toList)) init bs rfl ?_
  intro i hi s hs
  rw [Spec.Sha.sha2Hash, ← hs]
  exact sha512Chunk_eq s bs[i] _ fun t ht => word64_block bs i t hi ht

theorem sha256Core_eq (init : Vector U32 8) (m : List U8) (hm : m.length < 2 ^ 61) :
    ∃ v, sha256Core init m = .ok v ∧ eight v = Spec.Sha.sha2Hash Spec.Sha.family32 (eight init)
      (Spec.Sha.pad 64 8 m) ((Spec.Sha.pad 64 8 m).length / 64) := by
  obtain ⟨last, extra, hp, hb⟩ := blocks64 m hm
  have hlen : (Spec.Sha.pad 64 8 m).length / 64 = (chunksExact 64 m ++ last :: extra.toList).length := by
    rw [← hb, length_flatMap_toList, Nat.mul_div_cancel _ (by omega)]
  refine ⟨(chunksExact 64 m ++ last :: extra.toList).foldl sha256Chunk init, ?_, ?_⟩
  · unfold sha256Core
    simp only [hp, bind, Except.bind]
    rw [← foldl_opt]
    cases extra <;> rfl
  · rw [hlen, ← hb]
    exact sha256_hash_blocks init _

theorem sha512Core_eq (init : Vector U64 8) (m : List U8) (hm : m.length < 2 ^ 125) :
    ∃ v, sha512Core init m = .ok v ∧ eight v = Spec.Sha.sha2Hash Spec.Sha.family64 (eight init)
      (Spec.Sha.pad 128 16 m) ((Spec.Sha.pad 128 16 m).length / 128) := by
  obtain ⟨last, extra, hp, hb⟩ := blocks128 m hm
  have hlen : (Spec.Sha.pad 128 16 m).length / 128 = (chunksExact 128 m ++ last :: extra.toList).length := by
    rw [← hb, length_flatMap_toList, Nat.mul_div_cancel _ (by omega)]
  refine ⟨(chunksExact 128 m ++ last :: extra.toList).foldl sha512Chunk init, ?_, ?_⟩
  · unfold sha512Core
    simp only [hp, bind, Except.bind]
    rw [← foldl_opt]
    cases extra <;> rfl
  · rw [hlen, ← hb]
    exact sha512_hash_blocks init _

theorem eight_256 : eight INITIAL_HASH_256 = Spec.Sha.init256 := by
  simp only [eight, init256_eq, Spec.Sha.init256]
theorem eight_512 : eight INITIAL_HASH_512 = Spec.Sha.init512 := by
  simp only [eight, init512_eq, Spec.Sha.init512]
theorem eight_384 : eight INITIAL_HASH_384 = Spec.Sha.init384 := by
  simp only [eight, init384_eq, Spec.Sha.init384]
theorem eight_224 : eight INITIAL_HASH_224 = Spec.Sha.init224 := by
  simp only [eight, init224_eq', Spec.Sha.init224]

theorem toList8 {α : Type} (v : Vector α 8) : v.toList = [v[0], v[1], v[2], v[3], v[4], v[5], v[6], v[7]] := by
  apply List.ext_getElem
  · simp
  · intro i h1 h2
    rcases i with _ | _ | _ | _ | _ | _ | _ | _ | i
    all_goals first | (simp at h2; omega) | simp

theorem sha256_eq (m : List U8) (hm : m.length < 2 ^ 61) :
    ∃ d, sha256 m = .ok d ∧ d.toList = Spec.Sha.sha256 m := by
  obtain ⟨v, hv, ev⟩ := sha256Core_eq INITIAL_HASH_256 m hm
  obtain ⟨d, hd, ed⟩ := u32sToBytes_ok (B := 32) rfl v
  refine ⟨d, by simp only [sha256, hv, hd, bind, Except.bind], ?_⟩
  rw [eight_256] at ev
  rw [ed, toList8]
  simp only [Spec.Sha.sha256, ← ev]
  rfl

theorem sha224_eq (m : List U8) (hm : m.length < 2 ^ 61) :
    ∃ d, sha224 m = .ok d ∧ d.toList = Spec.Sha.sha224 m := by
  obtain ⟨v, hv, ev⟩ := sha256Core_eq INITIAL_HASH_224 m hm
  obtain ⟨d, hd, ed⟩ := u32sToBytes_ok (B := 28) rfl (#v[v[0], v[1], v[2], v[3], v[4], v[5], v[6]])
  refine ⟨d, by simp only [sha224, hv, hd, bind, Except.bind], ?_⟩
  rw [eight_224] at ev
  rw [ed]
  simp only [Spec.Sha.sha224, ← ev]
  rfl

theorem sha512_eq (m : List U8) (hm : m.length < 2 ^ 125) :
    ∃ d, sha512 m = .ok d ∧ d.toList = Spec.Sha.sha512 m := by
  obtain ⟨v, hv, ev⟩ := sha512Core_eq INITIAL_HASH_512 m hm
  obtain ⟨d, hd, ed⟩ := u64sToBytes_ok (B := 64) rfl v
  refine ⟨d, by simp only [sha512, hv, hd, bind, Except.bind], ?_⟩
  rw [eight_512] at ev
  rw [ed, toList8]
  simp only [Spec.Sha.sha512, ← ev]
  rfl

theorem sha384_eq (m : List U8) (hm : m.length < 2 ^ 125) :
    ∃ d, sha384 m = .ok d ∧ d.toList = Spec.Sha.sha384 m := by
  obtain ⟨v, hv, ev⟩ := sha512Core_eq INITIAL_HASH_384 m hm
  obtain ⟨d, hd, ed⟩ := u64sToBytes_ok (B := 48) rfl (#v[v[0], v[1], v[2], v[3], v[4], v[5]])
  refine ⟨d, by simp only [sha384, hv, hd, bind, Except.bind], ?_⟩
  rw [eight_384] at ev
  rw [ed]
  simp only [Spec.Sha.sha384, ← ev]
  rfl

end Verif.Model.Sha
