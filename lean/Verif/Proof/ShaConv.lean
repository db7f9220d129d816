import Verif.Proof.Sha

/-! # Hash value conversions -/

namespace Verif.Model.Sha
open Verif

/-- The word a chunk of four bytes spells. -/
def w4 (c : Vector U8 4) : U32 := beU32 c[0] c[1] c[2] c[3]

theorem toU32sLoop_ok {W : Nat} (i : Nat) (cs : List (Vector U8 4)) (v : Vector U32 W) (h : i + cs.length ≤ W) :
    ∃ r, toU32sLoop i cs v = .ok r ∧ r.toList = v.toList.take i ++ cs.map w4 ++ v.toList.drop (i + cs.length) := by
  induction cs generalizing i v with
  | nil => exact ⟨v, rfl, by simp⟩
  | cons c cs ih =>
    simp only [List.length_cons] at h
    have hv := vset_ok v i (w4 c) (by omega)
    obtain ⟨r, hr, er⟩ := ih (i + 1) (v.set i (w4 c)) (by omega)
    refine ⟨r, ?_, ?_⟩
    · show (do toU32sLoop (i + 1) cs (← vset v i (w4 c))) = _
      simp only [hv, hr, bind, Except.bind]
    · rw [er, Vector.toList_set, List.length_cons]
      have e1 : List.take (i + 1) (v.toList.set i (w4 c)) = v.toList.take i ++ [w4 c] := by
        rw [List.take_succ_eq_append_getElem (by simp; omega)]
        simp [List.take_set_of_le]
      have e2 : List.drop (i + 1 + cs.length) (v.toList.set i (w4 c)) = v.toList.drop (i + (cs.length + 1)) := by
        rw [List.drop_set_of_lt (by omega)]
        congr 1; omega
      rw [e1, e2]; simp

theorem bytesToU32s_ok {W : Nat} (cs : List (Vector U8 4)) (h : cs.length = W) (v : HashValue (4 * W))
    (hv : v.toList = cs.flatMap Vector.toList) :
    ∃ r, bytesToU32s W v = .ok r ∧ r.toList = cs.map w4 := by
  unfold bytesToU32s
  have := chunksExact_eq (n := 4) cs [] (by simp)
  rw [List.append_nil] at this
  rw [hv, this]
  obtain ⟨r, hr, er⟩ := toU32sLoop_ok 0 cs (Vector.replicate W 0#32) (by omega)
  exact ⟨r, hr, by rw [er]; simp [h]⟩

theorem toList4 {α : Type} (v : Vector α 4) : v.toList = [v[0], v[1], v[2], v[3]] := by
  apply List.ext_getElem
  · simp
  · intro i h1 h2
    rcases i with _ | _ | _ | _ | i
    all_goals first | (simp at h2; omega) | simp

theorem w4_toNat (c : Vector U8 4) : (w4 c).toNat = beVal c.toList := by
  rw [toList4]
  unfold w4
  rw [← word32_of, BitVec.toNat_ofNat]
  apply Nat.mod_eq_of_lt
  have := leVal_lt [c[3], c[2], c[1], c[0]]
  simpa [beVal] using this

theorem natToBE_w4 (c : Vector U8 4) : natToBE 4 (w4 c).toNat = c.toList := by
  rw [w4_toNat]
  have := natToBE_beVal c.toList
  rwa [Vector.length_toList] at this

/-- The four bytes of a word. -/
def c4 (w : U32) : Vector U8 4 := ⟨(natToBE 4 w.toNat).toArray, by simp [length_natToBE]⟩

theorem c4_toList (w : U32) : (c4 w).toList = natToBE 4 w.toNat := rfl

theorem w4_c4 (w : U32) : w4 (c4 w) = w := by
  apply BitVec.eq_of_toNat_eq
  rw [w4_toNat, c4_toList, beVal_natToBE]
  exact Nat.mod_eq_of_lt w.isLt

theorem roundtrip_words {W : Nat} (ws : Vector U32 W) : ∃ v : HashValue (4 * W),
    u32sToBytes (4 * W) ws = .ok v ∧ v.toList = Spec.Sha.bytes ws.toList ∧ bytesToU32s W v = .ok ws := by
  obtain ⟨v, hv, ev⟩ := u32sToBytes_ok (B := 4 * W) rfl ws
  refine ⟨v, hv, ev, ?_⟩
  obtain ⟨r, hr, er⟩ := bytesToU32s_ok (ws.toList.map c4) (by simp) v (by
    rw [ev, Spec.Sha.bytes, List.flatMap_map]; rfl)
  rw [hr]
  congr 1
  apply Vector.toList_inj.1
  rw [er, List.map_map]
  conv => rhs; rw [← List.map_id ws.toList]
  exact List.map_congr_left fun w _ => w4_c4 w

theorem roundtrip_bytes {W : Nat} (v : HashValue (4 * W)) : ∃ ws : Vector U32 W,
    bytesToU32s W v = .ok ws ∧ u32sToBytes (4 * W) ws = .ok v := by
  obtain ⟨bs, tail, e, ht, hb⟩ := exists_chunks (n := 4) (by omega) v.toList
  have hl : v.toList.length = 4 * W := Vector.length_toList
  have ht0 : tail = [] := List.eq_nil_of_length_eq_zero (by rw [ht, hl]; omega)
  rw [ht0, List.append_nil] at e
  obtain ⟨ws, hw, ew⟩ := bytesToU32s_ok bs (by rw [hb, hl]; omega) v e
  refine ⟨ws, hw, ?_⟩
  obtain ⟨u, hu, eu⟩ := u32sToBytes_ok (B := 4 * W) rfl ws
  rw [hu]
  congr 1
  apply Vector.toList_inj.1
  rw [eu, ew, e, Spec.Sha.bytes, List.flatMap_map]
  congr 1
  funext c
  exact natToBE_w4 c

theorem bytesToU64s_panics {B W : Nat} (h : 4 ≤ B) (v : HashValue B) : bytesToU64s W v = .error .unwrap := by
  unfold bytesToU64s
  have hl : 0 < (chunksExact 4 v.toList).length := by
    simp only [chunksExact, List.length_ofFn, Vector.length_toList]
    omega
  cases hc : chunksExact 4 v.toList with
  | nil => rw [hc] at hl; simp at hl
  | cons c cs =>
    unfold toU64sLoop chunkToArray
    rw [dif_neg (by simp)]
    rfl

theorem bytes_inj {n : Nat} (hn : n % 8 = 0) {ws ws' : List (BitVec n)} (hl : ws.length = ws'.length)
    (h : Spec.Sha.bytes ws = Spec.Sha.bytes ws') : ws = ws' := by
  induction ws generalizing ws' with
  | nil => cases ws' with
    | nil => rfl
    | cons => simp at hl
  | cons w ws ih =>
    cases ws' with
    | nil => simp at hl
    | cons w' ws' =>
      simp only [Spec.Sha.bytes, List.flatMap_cons] at h
      obtain ⟨h1, h2⟩ := List.append_inj h (by simp [length_natToBE])
      have : w = w' := by
        apply BitVec.eq_of_toNat_eq
        have := congrArg beVal h1
        rw [beVal_natToBE, beVal_natToBE, show (256 : Nat) = 2 ^ 8 from rfl, ← Nat.pow_mul,
          show 8 * (n / 8) = n by omega, Nat.mod_eq_of_lt w.isLt, Nat.mod_eq_of_lt w'.isLt] at this
        exact this
      rw [this, ih (by simpa using hl) h2]

/-! ## Hexadecimal -/

open Verif.Spec.Sha (digitVal Spells)

theorem hexVal_toOption (c : U8) (i : Nat) : (hexVal c i).toOption = (hexVal c 0).toOption := by
  unfold hexVal
  split
  · rfl
  · split
    · rfl
    · split <;> rfl

theorem hexVal_spec0 : ∀ c : U8, (hexVal c 0).toOption.map BitVec.toNat = digitVal c := by decide +kernel

theorem digitVal_lt : ∀ c : U8, ∀ d ∈ digitVal c, d < 16 := by decide +kernel

theorem hexVal_spec (c x : U8) (i : Nat) : hexVal c i = .ok x ↔ digitVal c = some x.toNat := by
  rw [← hexVal_spec0, ← hexVal_toOption c i]
  cases h : hexVal c i with
  | error e => simp [Except.toOption]
  | ok y => simp [Except.toOption, BitVec.toNat_inj]

theorem join_nibbles : ∀ x y : U8, x.toNat < 16 → y.toNat < 16 → (x <<< 4 ||| y).toNat = 16 * x.toNat + y.toNat := by
  intro x y hx hy
  rw [BitVec.toNat_or, BitVec.toNat_shiftLeft, Nat.shiftLeft_eq, Nat.mod_eq_of_lt (by omega), Nat.mul_comm,
    Nat.two_pow_add_eq_or_of_lt (i := 4) (by omega)]

/-- What the loop over pairs of digits returns. -/
theorem hexPairs_iff (n i : Nat) (s : List U8) (hs : s.length = 2 * n) (r : List U8) :
    hexPairs i s = .ok r ↔ r.length = n ∧ ∀ j (_ : j < r.length), ∃ h l, s[2 * j]?.bind digitVal = some h ∧
      s[2 * j + 1]?.bind digitVal = some l ∧ r[j].toNat = 16 * h + l := by
  induction n generalizing i s r with
  | zero =>
    have : s = [] := List.eq_nil_of_length_eq_zero (by omega)
    subst this
    simp only [hexPairs]
    constructor
    · intro h; cases h; simp
    · rintro ⟨h, -⟩; rw [List.eq_nil_of_length_eq_zero h]
  | succ n ih =>
    match s, hs with
    | a :: b :: rest, hs =>
      have hr : rest.length = 2 * n := by simp at hs; omega
      unfold hexPairs
      constructor
      · intro h
        cases hx : hexVal a (2 * i) with
        | error e => simp [hx, bind, Except.bind] at h
        | ok x =>
          cases hy : hexVal b (2 * i + 1) with
          | error e => simp [hx, hy, bind, Except.bind] at h
          | ok y =>
            cases hq : hexPairs (i + 1) rest with
            | error e => simp [hx, hy, hq, bind, Except.bind] at h
            | ok q =>
              simp only [hx, hy, hq, bind, Except.bind, Except.ok.injEq] at h
              subst h
              obtain ⟨hl, hj⟩ := (ih (i + 1) rest hr q).1 hq
              refine ⟨by simp [hl], ?_⟩
              rw [hexVal_spec] at hx hy
              have h1 := digitVal_lt a _ hx
              have h2 := digitVal_lt b _ hy
              intro j hj'
              cases j with
              | zero => exact ⟨x.toNat, y.toNat, by simpa using hx, by simpa using hy, join_nibbles x y h1 h2⟩
              | succ j => exact hj j (by simpa using hj')
      · rintro ⟨hl, hj⟩
        match r, hl with
        | z :: q, hl =>
          have hlq : q.length = n := by simpa using hl
          obtain ⟨h, l, e1, e2, e3⟩ := hj 0 (by simp)
          simp only [List.getElem?_cons_zero, List.getElem?_cons_succ, Option.bind_some, Nat.mul_zero, Nat.zero_add,
            List.getElem_cons_zero] at e1 e2 e3
          have h1 := digitVal_lt a _ e1
          have h2 := digitVal_lt b _ e2
          have hx : hexVal a (2 * i) = .ok (BitVec.ofNat 8 h) := by
            rw [hexVal_spec, e1, BitVec.toNat_ofNat, Nat.mod_eq_of_lt (by omega)]
          have hy : hexVal b (2 * i + 1) = .ok (BitVec.ofNat 8 l) := by
            rw [hexVal_spec, e2, BitVec.toNat_ofNat, Nat.mod_eq_of_lt (by omega)]
          have hq : hexPairs (i + 1) rest = .ok q := (ih (i + 1) rest hr q).2 ⟨hlq, fun j hj' => by
            have := hj (j + 1) (by simpa using hj')
            simpa [Nat.mul_add] using this⟩
          simp only [hx, hy, hq, bind, Except.bind]
          congr 2
          apply BitVec.eq_of_toNat_eq
          rw [join_nibbles _ _ (by rw [BitVec.toNat_ofNat]; omega) (by rw [BitVec.toNat_ofNat]; omega), e3,
            BitVec.toNat_ofNat, BitVec.toNat_ofNat]
          omega

theorem fromHex_iff {N : Nat} (s : List U8) (v : HashValue N) : fromHex N s = .ok (.ok v) ↔ Spells s v := by
  unfold fromHex vecFromHex Spells
  by_cases hodd : s.length % 2 ≠ 0
  · rw [if_pos hodd]
    constructor
    · intro h; simp at h
    · rintro ⟨h, -⟩; omega
  · rw [if_neg hodd]
    have hs : s.length = 2 * (s.length / 2) := by omega
    have key := hexPairs_iff (s.length / 2) 0 s hs
    constructor
    · intro h
      cases hq : hexPairs 0 s with
      | error e => simp [hq] at h
      | ok q =>
        obtain ⟨hl, hj⟩ := (key q).1 hq
        simp only [hq] at h
        by_cases hN : q.length ≠ N
        · rw [if_pos hN] at h; simp at h
        · rw [if_neg hN] at h
          have hN' : q.length = N := by omega
          unfold chunkToArray at h
          rw [dif_pos hN'] at h
          simp only [bind, Except.bind, Except.ok.injEq] at h
          subst h
          exact ⟨by omega, fun i hi => hj i (by omega)⟩
    · rintro ⟨hl, hj⟩
      have hq : hexPairs 0 s = .ok v.toList := (key _).2 ⟨by simp; omega, fun j hj' => by
        simpa using hj j (by simpa using hj')⟩
      simp only [hq]
      rw [if_neg (by simp)]
      unfold chunkToArray
      rw [dif_pos (by simp)]
      rfl

theorem fromHex_total {N : Nat} (s : List U8) : ∃ r, fromHex N s = .ok r := by
  unfold fromHex
  split
  · exact ⟨_, rfl⟩
  · next bytes _ =>
    by_cases h : bytes.length ≠ N
    · rw [if_pos h]; exact ⟨_, rfl⟩
    · rw [if_neg h]; unfold chunkToArray; rw [dif_pos (by omega)]; exact ⟨_, rfl⟩

end Verif.Model.Sha
