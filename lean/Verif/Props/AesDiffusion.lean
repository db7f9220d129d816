import Verif.Proof.AesDiffusion
import Verif.Props.AesTrace

/-! # C138: differences spread in AES -/

namespace Verif.Props
open Verif Verif.Model Verif.Model.AesTrace

/-- At how many places two lists differ. -/
def differing (a b : List U8) : Nat := (a.zip b).countP fun x => x.1 ≠ x.2

/-- The lookups of `n` rounds after the first `i` rounds, 16 for each. -/
def roundsOf (i n : Nat) (lookups : List U8) : List U8 := (lookups.drop (16 * i)).take (16 * n)

/-! ## Proofs -/

theorem differing_append {a b a' b' : List U8} (h : a.length = a'.length) :
    differing (a ++ b) (a' ++ b') = differing a a' + differing b b' := by
  unfold differing
  rw [List.zip_append h, List.countP_append]

theorem differing_lit (a0 a1 a2 a3 a4 a5 a6 a7 a8 a9 a10 a11 a12 a13 a14 a15 b0 b1 b2 b3 b4 b5 b6 b7 b8 b9 b10 b11 b12
    b13 b14 b15 : U8) : differing [a0, a1, a2, a3, a4, a5, a6, a7, a8, a9, a10, a11, a12, a13, a14, a15]
      [b0, b1, b2, b3, b4, b5, b6, b7, b8, b9, b10, b11, b12, b13, b14, b15] =
    (a0 != b0).toNat + (a1 != b1).toNat + (a2 != b2).toNat + (a3 != b3).toNat + ((a4 != b4).toNat + (a5 != b5).toNat +
    (a6 != b6).toNat + (a7 != b7).toNat) + ((a8 != b8).toNat + (a9 != b9).toNat + (a10 != b10).toNat + (a11 != b11).toNat) +
    ((a12 != b12).toNat + (a13 != b13).toNat + (a14 != b14).toNat + (a15 != b15).toNat) := by
  unfold differing
  have e : ∀ (a b : U8) (l : List (U8 × U8)), ((a, b) :: l).countP (fun x => x.1 ≠ x.2) =
      (a != b).toNat + l.countP fun x => x.1 ≠ x.2 := by
    intro a b l
    rw [List.countP_cons, Nat.add_comm]
    congr 1
    by_cases h : a = b
    · simp [h]
    · rw [(bne_iff_ne).2 h]; simp [h]
  simp only [List.zip_cons_cons, List.zip_nil_right, e, List.countP_nil]
  omega

theorem differing_pat (s t : Aes.State) : differing s.toList t.toList = Aes.total (Aes.pat (s, t)) := by
  have h : ∀ u : Aes.State, u.toList = [u[0], u[1], u[2], u[3], u[4], u[5], u[6], u[7], u[8], u[9], u[10], u[11], u[12],
      u[13], u[14], u[15]] := by
    intro u
    conv => lhs; rw [Aes.vec16 u]
    rfl
  rw [h s, h t, differing_lit]
  simp only [Aes.total, Aes.weight, Fin.sum_univ_four]
  rfl

/-- Two computations with the same keys, as one list of pairs of states before the substitutions. -/
def Linked (a b : Aes.State × Aes.State) : Prop := Aes.Step (Aes.pat a) (Aes.pat b)

theorem enc_pairs (c : Aes.Aes) (ks : List Nat) (s s' t t' : Traced) (h : ks.foldlM (encRoundT c) s = .ok t)
    (h' : ks.foldlM (encRoundT c) s' = .ok t') : ∃ l : List (Aes.State × Aes.State),
      t.2 ++ t.1.toList = s.2 ++ l.flatMap (·.1.toList) ∧ t'.2 ++ t'.1.toList = s'.2 ++ l.flatMap (·.2.toList) ∧
      l.length = ks.length + 1 ∧ l.IsChain Linked ∧ l.head? = some (s.1, s'.1) := by
  induction ks generalizing s s' with
  | nil =>
    cases h
    cases h'
    exact ⟨[(t.1, t'.1)], by simp, by simp, rfl, by simp, rfl⟩
  | cons k ks ih =>
    rw [List.foldlM_cons] at h h'
    cases hk : idx c.keys k with
    | error e => simp [encRoundT, hk, bind, Except.bind] at h
    | ok key =>
      simp only [encRoundT, hk, bind, Except.bind] at h h'
      obtain ⟨l, e1, e2, e3, e4, e5⟩ := ih _ _ h h'
      refine ⟨(s.1, s'.1) :: l, ?_, ?_, by simp [e3], ?_, rfl⟩
      · rw [e1]; simp [quiet, substituteT]
      · rw [e2]; simp [quiet, substituteT]
      · rw [List.isChain_cons]
        refine ⟨?_, e4⟩
        intro y hy
        rw [e5] at hy
        rw [← Option.some.inj hy]
        exact Aes.step_enc key s.1 s'.1

/-- The same for decryption: here every state is linked to the one before. -/
theorem dec_pairs (c : Aes.Aes) (ks : List Nat) (a a' : Aes.State) (r r' : List U8) (t t' : Traced)
    (h : ks.foldlM (decRoundT c) (Aes.unsubstitute a, r ++ a.toList) = .ok t)
    (h' : ks.foldlM (decRoundT c) (Aes.unsubstitute a', r' ++ a'.toList) = .ok t') : ∃ l : List (Aes.State × Aes.State),
      t.2 = r ++ l.flatMap (·.1.toList) ∧ t'.2 = r' ++ l.flatMap (·.2.toList) ∧
      l.length = ks.length + 1 ∧ l.IsChain (fun a b => Linked b a) ∧ l.head? = some (a, a') := by
  induction ks generalizing a a' r r' with
  | nil =>
    cases h
    cases h'
    exact ⟨[(a, a')], by simp, by simp, rfl, by simp, rfl⟩
  | cons k ks ih =>
    rw [List.foldlM_cons] at h h'
    cases hk : idx c.keys k with
    | error e => simp [decRoundT, hk, bind, Except.bind] at h
    | ok key =>
      simp only [decRoundT, hk, bind, Except.bind, quiet, unsubstituteT] at h h'
      obtain ⟨l, e1, e2, e3, e4, e5⟩ := ih _ _ _ _ h h'
      refine ⟨(a, a') :: l, ?_, ?_, by simp [e3], ?_, rfl⟩
      · rw [e1]; simp
      · rw [e2]; simp
      · rw [List.isChain_cons]
        refine ⟨?_, e4⟩
        intro y hy
        rw [e5] at hy
        rw [← Option.some.inj hy]
        exact Aes.step_dec key a a'

theorem drop_states (l : List (Aes.State × Aes.State)) (f : Aes.State × Aes.State → Aes.State) (i : Nat) :
    (l.flatMap fun x => (f x).toList).drop (16 * i) = (l.drop i).flatMap fun x => (f x).toList := by
  induction i generalizing l with
  | zero => rfl
  | succ i ih =>
    cases l with
    | nil => simp
    | cons x l =>
      rw [List.flatMap_cons, List.drop_succ_cons, ← ih l, show 16 * (i + 1) = (f x).toList.length + 16 * i by simp; omega,
        List.drop_append]
      simp

theorem take_states (l : List (Aes.State × Aes.State)) (f : Aes.State × Aes.State → Aes.State) (i : Nat) :
    (l.flatMap fun x => (f x).toList).take (16 * i) = (l.take i).flatMap fun x => (f x).toList := by
  induction i generalizing l with
  | zero => rfl
  | succ i ih =>
    cases l with
    | nil => simp
    | cons x l =>
      rw [List.flatMap_cons, List.take_succ_cons, List.flatMap_cons, ← ih l,
        show 16 * (i + 1) = (f x).toList.length + 16 * i by simp; omega, List.take_append]
      simp

theorem differing_states (l : List (Aes.State × Aes.State)) :
    differing (l.flatMap (·.1.toList)) (l.flatMap (·.2.toList)) = (l.map fun x => Aes.total (Aes.pat x)).sum := by
  induction l with
  | nil => rfl
  | cons x l ih =>
    rw [List.flatMap_cons, List.flatMap_cons, differing_append (by simp), differing_pat, ih, List.map_cons, List.sum_cons]

theorem differing_rounds (l : List (Aes.State × Aes.State)) (i n : Nat) :
    differing (roundsOf i n (l.flatMap (·.1.toList))) (roundsOf i n (l.flatMap (·.2.toList))) =
      (((l.drop i).take n).map fun x => Aes.total (Aes.pat x)).sum := by
  unfold roundsOf
  rw [drop_states, drop_states, take_states, take_states, differing_states]

/-- Something differs. -/
def Active (x : Aes.State × Aes.State) : Prop := ∃ r c, Aes.pat x r c = true

theorem active_iff (a b : Aes.State) : Active (a, b) ↔ a ≠ b := by
  constructor
  · rintro ⟨r, c, h⟩ rfl
    simp [Aes.pat] at h
  · intro hne
    by_contra hn
    apply hne
    apply Aes.ofBlock_injective
    funext r c
    by_contra h
    exact hn ⟨r, c, by simpa [Aes.pat] using h⟩

theorem active_total {x : Aes.State × Aes.State} (h : Active x) : 1 ≤ Aes.total (Aes.pat x) := by
  obtain ⟨r, c, h⟩ := h
  have h1 := Aes.weight_le_sum (Aes.col (Aes.pat x)) c
  have h2 : Aes.weight (Aes.col (Aes.pat x) c) ≠ 0 := fun e => by
    have := Aes.weight_zero _ e r
    unfold Aes.col at this
    rw [h] at this
    cases this
  unfold Aes.total
  omega

/-- What the chain gives, for encryption and decryption alike. -/
def Wide (l : List (Aes.State × Aes.State)) : Prop := ∀ i,
  (i + 1 ≤ l.length → 1 ≤ (((l.drop i).take 1).map fun x => Aes.total (Aes.pat x)).sum) ∧
  (i + 2 ≤ l.length → 5 ≤ (((l.drop i).take 2).map fun x => Aes.total (Aes.pat x)).sum) ∧
  (i + 4 ≤ l.length → 25 ≤ (((l.drop i).take 4).map fun x => Aes.total (Aes.pat x)).sum)

theorem all_active (R : Aes.State × Aes.State → Aes.State × Aes.State → Prop) (hR : ∀ x y, R x y → Active x → Active y)
    (l : List (Aes.State × Aes.State)) (hc : l.IsChain R) (h0 : ∀ x, l.head? = some x → Active x) : ∀ x ∈ l, Active x := by
  induction l with
  | nil => simp
  | cons x l ih =>
    rw [List.isChain_cons] at hc
    intro y hy
    rcases List.mem_cons.1 hy with rfl | hy
    · exact h0 _ rfl
    · exact ih hc.2 (fun z hz => hR x z (hc.1 z hz) (h0 x rfl)) y hy

theorem wide_of (R : Aes.State × Aes.State → Aes.State × Aes.State → Prop) (hR : ∀ x y, R x y → (Active x ↔ Active y))
    (h2 : ∀ x y, R x y → Active y → 5 ≤ Aes.total (Aes.pat x) + Aes.total (Aes.pat y))
    (h4 : ∀ x y z u, R x y → R y z → R z u → Active y → 25 ≤ Aes.total (Aes.pat x) + Aes.total (Aes.pat y) +
      Aes.total (Aes.pat z) + Aes.total (Aes.pat u))
    (l : List (Aes.State × Aes.State)) (hc : l.IsChain R) (h0 : ∀ x, l.head? = some x → Active x) : Wide l := by
  have ha := all_active R (fun x y h => (hR x y h).1) l hc h0
  intro i
  have hm : ∀ x ∈ l.drop i, Active x := fun x hx => ha x (List.mem_of_mem_drop hx)
  have hd : (l.drop i).IsChain R := hc.drop i
  have hl : (l.drop i).length = l.length - i := by simp
  generalize l.drop i = d at hm hd hl
  refine ⟨fun h => ?_, fun h => ?_, fun h => ?_⟩
  · match d, hl with
    | [], hl => simp at hl; omega
    | x :: d, _ => simpa using active_total (hm x (by simp))
  · match d, hl with
    | [], hl => simp at hl; omega
    | [x], hl => simp at hl; omega
    | x :: y :: d, _ =>
      rw [List.isChain_cons_cons] at hd
      simpa using h2 x y hd.1 (hm y (by simp))
  · match d, hl with
    | [], hl => simp at hl; omega
    | [x], hl => simp at hl; omega
    | [x, y], hl => simp at hl; omega
    | [x, y, z], hl => simp at hl; omega
    | x :: y :: z :: u :: d, _ =>
      rw [List.isChain_cons_cons, List.isChain_cons_cons, List.isChain_cons_cons] at hd
      have := h4 x y z u hd.1 hd.2.1 hd.2.2.1 (hm y (by simp))
      simp only [List.take_succ_cons, List.take_zero, List.map_cons, List.map_nil, List.sum_cons, List.sum_nil]
      omega

theorem wide_enc (l : List (Aes.State × Aes.State)) (hc : l.IsChain Linked) (h0 : ∀ x, l.head? = some x → Active x) :
    Wide l :=
  wide_of Linked (fun _ _ h => Aes.step_active h) (fun _ _ h ha => Aes.five h ha)
    (fun _ _ _ _ h1 h2 h3 ha => Aes.four_rounds h1 h2 h3 ha) l hc h0

theorem wide_dec (l : List (Aes.State × Aes.State)) (hc : l.IsChain fun a b => Linked b a)
    (h0 : ∀ x, l.head? = some x → Active x) : Wide l :=
  wide_of (fun a b => Linked b a) (fun _ _ h => (Aes.step_active h).symm)
    (fun x y h ha => by have := Aes.five h ((Aes.step_active h).1 ha); omega)
    (fun x y z u h1 h2 h3 ha => by
      have := Aes.four_rounds h3 h2 h1 ((Aes.step_active h2).2 ha)
      omega) l hc h0

theorem BuiltAes.rounds_eq {c : Aes.Aes} (h : BuiltAes c) : c.rounds = 10 ∨ c.rounds = 12 ∨ c.rounds = 14 := by
  cases h with
  | k128 key _ h =>
    obtain ⟨c', w, h1, h2, h3, _⟩ := with128_spec key
    rw [h] at h1; injection h1 with h1; subst h1; omega
  | k192 key _ h =>
    obtain ⟨c', w, h1, h2, h3, _⟩ := with192_spec key
    rw [h] at h1; injection h1 with h1; subst h1; omega
  | k256 key _ h =>
    obtain ⟨c', w, h1, h2, h3, _⟩ := with256_spec key
    rw [h] at h1; injection h1 with h1; subst h1; omega

theorem addKey_same (k : Vector U8 16) (a b : Aes.State) : Aes.addKey k a = Aes.addKey k b ↔ a = b :=
  ⟨fun h => by have := congrArg (Aes.addKey k) h; rwa [Aes.addKey_addKey, Aes.addKey_addKey] at this, fun h => by rw [h]⟩

theorem unshift_inj (a b : Aes.State) : Aes.unshiftRows a = Aes.unshiftRows b ↔ a = b :=
  ⟨fun h => by have := congrArg Aes.shiftRows h; rwa [Aes.shiftRows_unshiftRows, Aes.shiftRows_unshiftRows] at this,
    fun h => by rw [h]⟩

theorem total_addKey (k : Vector U8 16) (a b : Aes.State) :
    Aes.total (Aes.pat (Aes.addKey k a, Aes.addKey k b)) = Aes.total (Aes.pat (a, b)) := by
  have ha : ∀ (u : Aes.State) r c, Spec.Aes.ofBlock (Aes.addKey k u) r c =
      Spec.Aes.ofBlock u r c ^^^ Spec.Aes.ofBlock k r c := by
    intro u r c
    simp [Spec.Aes.ofBlock, Aes.addKey]
  have : Aes.pat (Aes.addKey k a, Aes.addKey k b) = Aes.pat (a, b) := by
    funext r c
    unfold Aes.pat
    rw [ha, ha, Bool.eq_iff_iff, bne_iff_ne, bne_iff_ne]
    exact ⟨fun h e => h (by rw [e]), fun h e => h ((BitVec.xor_left_inj _).1 e)⟩
  rw [this]

theorem total_unshift (a b : Aes.State) :
    Aes.total (Aes.pat (Aes.unshiftRows a, Aes.unshiftRows b)) = Aes.total (Aes.pat (a, b)) := by
  have h : Aes.col (Aes.pat (a, b)) = Aes.diag (Aes.pat (Aes.unshiftRows a, Aes.unshiftRows b)) := by
    funext c r
    unfold Aes.col Aes.diag Aes.pat
    conv => lhs; rw [← Aes.shiftRows_unshiftRows a, ← Aes.shiftRows_unshiftRows b]
    rw [Aes.ofBlock_shiftRows, Aes.ofBlock_shiftRows]
    rfl
  rw [← Aes.total_diag, ← h]
  rfl

/-- The two records of encryptions as one list of pairs. -/
theorem enc_record (c : Aes.Aes) (hr : 1 ≤ c.rounds) (p p' : Vector U8 16) (x x' : Traced) (h : encryptT c p = .ok x)
    (h' : encryptT c p' = .ok x') : ∃ (l : List (Aes.State × Aes.State)) (k : Vector U8 16),
      x.2 = l.flatMap (·.1.toList) ∧ x'.2 = l.flatMap (·.2.toList) ∧ l.length = c.rounds ∧ l.IsChain Linked ∧
      l.head? = some (Aes.addKey k p, Aes.addKey k p') := by
  unfold encryptT at h h'
  cases h0 : idx c.keys 0 with
  | error e => rw [h0] at h; cases h
  | ok k =>
    rw [h0] at h h'
    simp only [bind, Except.bind] at h h'
    rcases e : (List.range' 1 (c.rounds - 1)).foldlM (encRoundT c) (Aes.addKey k p, []) with _ | t
    · rw [e] at h; cases h
    rcases e' : (List.range' 1 (c.rounds - 1)).foldlM (encRoundT c) (Aes.addKey k p', []) with _ | t'
    · rw [e'] at h'; cases h'
    rw [e] at h
    rw [e'] at h'
    simp only at h h'
    cases h1 : idx c.keys c.rounds with
    | error e => rw [h1] at h; cases h
    | ok k1 =>
      rw [h1] at h h'
      simp only [Except.ok.injEq] at h h'
      obtain ⟨l, e1, e2, e3, e4, e5⟩ := enc_pairs c _ _ _ t t' e e'
      refine ⟨l, k, ?_, ?_, ?_, e4, e5⟩
      · rw [← h]; simpa [quiet, substituteT] using e1
      · rw [← h']; simpa [quiet, substituteT] using e2
      · rw [e3, List.length_range']; omega

theorem dec_record (c : Aes.Aes) (hr : 1 ≤ c.rounds) (p p' : Vector U8 16) (x x' : Traced) (h : decryptT c p = .ok x)
    (h' : decryptT c p' = .ok x') : ∃ (l : List (Aes.State × Aes.State)) (k : Vector U8 16),
      x.2 = l.flatMap (·.1.toList) ∧ x'.2 = l.flatMap (·.2.toList) ∧ l.length = c.rounds ∧
      l.IsChain (fun a b => Linked b a) ∧
      l.head? = some (Aes.unshiftRows (Aes.addKey k p), Aes.unshiftRows (Aes.addKey k p')) := by
  unfold decryptT at h h'
  cases h0 : idx c.keys c.rounds with
  | error e => rw [h0] at h; cases h
  | ok k =>
    rw [h0] at h h'
    simp only [bind, Except.bind, quiet, unsubstituteT] at h h'
    rcases e : (List.range' 1 (c.rounds - 1)).reverse.foldlM (decRoundT c)
      (Aes.unsubstitute (Aes.unshiftRows (Aes.addKey k p)), [] ++ (Aes.unshiftRows (Aes.addKey k p)).toList) with _ | t
    · rw [e] at h; cases h
    rcases e' : (List.range' 1 (c.rounds - 1)).reverse.foldlM (decRoundT c)
      (Aes.unsubstitute (Aes.unshiftRows (Aes.addKey k p')), [] ++ (Aes.unshiftRows (Aes.addKey k p')).toList) with _ | t'
    · rw [e'] at h'; cases h'
    rw [e] at h
    rw [e'] at h'
    simp only at h h'
    cases h1 : idx c.keys 0 with
    | error e => rw [h1] at h; cases h
    | ok k1 =>
      rw [h1] at h h'
      simp only [Except.ok.injEq] at h h'
      obtain ⟨l, e1, e2, e3, e4, e5⟩ := dec_pairs c _ _ _ _ _ t t' e e'
      refine ⟨l, k, ?_, ?_, ?_, e4, e5⟩
      · rw [← h]; simpa using e1
      · rw [← h']; simpa using e2
      · rw [e3, List.length_reverse, List.length_range']; omega

/-! ## C138 -/

/-- C138: two different plaintexts under the same key: in every round of the encryptions at least one lookup in the S-box
differs, in any two rounds one after the other at least 5, in any four rounds at least 25. -/
theorem C138_encrypt {c : Aes.Aes} (hc : BuiltAes c) (p p' : Vector U8 16) (hne : p ≠ p') :
    ∃ v t v' t', encryptT c p = .ok (v, t) ∧ encryptT c p' = .ok (v', t') ∧ ∀ i,
      (i + 1 ≤ c.rounds → 1 ≤ differing (roundsOf i 1 t) (roundsOf i 1 t')) ∧
      (i + 2 ≤ c.rounds → 5 ≤ differing (roundsOf i 2 t) (roundsOf i 2 t')) ∧
      (i + 4 ≤ c.rounds → 25 ≤ differing (roundsOf i 4 t) (roundsOf i 4 t')) := by
  have hr := hc.rounds_eq
  obtain ⟨v, t, h, _⟩ := encrypt_trace c (by omega) hc.length p
  obtain ⟨v', t', h', _⟩ := encrypt_trace c (by omega) hc.length p'
  obtain ⟨l, k, e1, e2, e3, e4, e5⟩ := enc_record c (by omega) p p' _ _ h h'
  refine ⟨v, t, v', t', h, h', fun i => ?_⟩
  simp only at e1 e2
  have := wide_enc l e4 (by
    intro x hx
    rw [e5] at hx
    rw [← Option.some.inj hx, active_iff]
    exact fun e => hne ((addKey_same k p p').1 e)) i
  rw [e1, e2, differing_rounds, differing_rounds, differing_rounds, ← e3]
  exact this

/-- C138: the same for two different ciphertexts and their decryptions. -/
theorem C138_decrypt {c : Aes.Aes} (hc : BuiltAes c) (p p' : Vector U8 16) (hne : p ≠ p') :
    ∃ v t v' t', decryptT c p = .ok (v, t) ∧ decryptT c p' = .ok (v', t') ∧ ∀ i,
      (i + 1 ≤ c.rounds → 1 ≤ differing (roundsOf i 1 t) (roundsOf i 1 t')) ∧
      (i + 2 ≤ c.rounds → 5 ≤ differing (roundsOf i 2 t) (roundsOf i 2 t')) ∧
      (i + 4 ≤ c.rounds → 25 ≤ differing (roundsOf i 4 t) (roundsOf i 4 t')) := by
  have hr := hc.rounds_eq
  obtain ⟨v, t, h, _⟩ := decrypt_trace c hc.length (by omega) p
  obtain ⟨v', t', h', _⟩ := decrypt_trace c hc.length (by omega) p'
  obtain ⟨l, k, e1, e2, e3, e4, e5⟩ := dec_record c (by omega) p p' _ _ h h'
  refine ⟨v, t, v', t', h, h', fun i => ?_⟩
  simp only at e1 e2
  have := wide_dec l e4 (by
    intro x hx
    rw [e5] at hx
    rw [← Option.some.inj hx, active_iff]
    exact fun e => hne ((addKey_same k p p').1 ((unshift_inj _ _).1 e))) i
  rw [e1, e2, differing_rounds, differing_rounds, differing_rounds, ← e3]
  exact this

theorem differing_split (i : Nat) (t t' : List U8) (h : t.length = t'.length) :
    differing t t' = differing (t.take i) (t'.take i) + differing (t.drop i) (t'.drop i) := by
  conv => lhs; rw [← List.take_append_drop i t, ← List.take_append_drop i t']
  exact differing_append (by simp [h])

theorem total_four (n : Nat) (t t' : List U8) (h : t.length = t'.length)
    (h4 : ∀ i, i + 4 ≤ 4 * n → 25 ≤ differing (roundsOf i 4 t) (roundsOf i 4 t')) :
    25 * n ≤ differing (t.take (64 * n)) (t'.take (64 * n)) := by
  have key : ∀ k, k ≤ n → 25 * k ≤ differing (t.take (64 * k)) (t'.take (64 * k)) := by
    intro k
    induction k with
    | zero => intro _; omega
    | succ k ih =>
      intro hk
      have h1 := ih (by omega)
      have e := h4 (4 * k) (by omega)
      unfold roundsOf at e
      rw [show 16 * (4 * k) = 64 * k by omega, List.take_drop, List.take_drop, show 64 * k + 16 * 4 = 64 * (k + 1) by omega] at e
      rw [differing_split (64 * k) _ _ (by simp [h]), List.take_take, List.take_take, Nat.min_eq_left (by omega)]
      omega
  exact key n (Nat.le_refl _)

theorem total_of (n : Nat) (t t' : List U8) (h : t.length = t'.length)
    (h2 : ∀ i, i + 2 ≤ 4 * n + 2 → 5 ≤ differing (roundsOf i 2 t) (roundsOf i 2 t'))
    (h4 : ∀ i, i + 4 ≤ 4 * n + 2 → 25 ≤ differing (roundsOf i 4 t) (roundsOf i 4 t')) : 25 * n + 5 ≤ differing t t' := by
  have h1 := total_four n t t' h fun i hi => h4 i (by omega)
  have e := h2 (4 * n) (by omega)
  unfold roundsOf at e
  rw [show 16 * (4 * n) = 64 * n by omega] at e
  rw [differing_split (64 * n) _ _ h]
  rw [differing_split (16 * 2) (t.drop (64 * n)) _ (by simp [h])]
  omega

/-- C138: so in a whole encryption or decryption at least 55 of the 160 lookups differ with a 128-bit key, 75 of the 192 with
a 192-bit key and 80 of the 224 with a 256-bit key. -/
theorem C138_all {c : Aes.Aes} (hc : BuiltAes c) (p p' : Vector U8 16) (hne : p ≠ p') :
    ∃ v t v' t' w u w' u', encryptT c p = .ok (v, t) ∧ encryptT c p' = .ok (v', t') ∧
      decryptT c p = .ok (w, u) ∧ decryptT c p' = .ok (w', u') ∧
      (c.rounds = 10 → 55 ≤ differing t t' ∧ 55 ≤ differing u u') ∧
      (c.rounds = 12 → 75 ≤ differing t t' ∧ 75 ≤ differing u u') ∧
      (c.rounds = 14 → 80 ≤ differing t t' ∧ 80 ≤ differing u u') := by
  have hr := hc.rounds_eq
  obtain ⟨v, t, v', t', h, h', hw⟩ := C138_encrypt hc p p' hne
  obtain ⟨w, u, w', u', g, g', gw⟩ := C138_decrypt hc p p' hne
  obtain ⟨_, _, a1, a2, _⟩ := encrypt_trace c (by omega) hc.length p
  obtain ⟨_, _, a1', a2', _⟩ := encrypt_trace c (by omega) hc.length p'
  obtain ⟨_, _, b1, b2, _⟩ := decrypt_trace c hc.length (by omega) p
  obtain ⟨_, _, b1', b2', _⟩ := decrypt_trace c hc.length (by omega) p'
  rw [h] at a1; rw [h'] at a1'; rw [g] at b1; rw [g'] at b1'
  cases a1; cases a1'; cases b1; cases b1'
  have ht := a2.trans a2'.symm
  have hu := b2.trans b2'.symm
  refine ⟨v, t, v', t', w, u, w', u', h, h', g, g', fun e => ?_, fun e => ?_, fun e => ?_⟩
  · exact ⟨total_of 2 t t' ht (fun i hi => (hw i).2.1 (by omega)) (fun i hi => (hw i).2.2 (by omega)),
      total_of 2 u u' hu (fun i hi => (gw i).2.1 (by omega)) (fun i hi => (gw i).2.2 (by omega))⟩
  · have h3 := total_four 3 t t' ht fun i hi => (hw i).2.2 (by omega)
    have g3 := total_four 3 u u' hu fun i hi => (gw i).2.2 (by omega)
    rw [differing_split (64 * 3) t t' ht, differing_split (64 * 3) u u' hu]
    omega
  · exact ⟨total_of 3 t t' ht (fun i hi => (hw i).2.1 (by omega)) (fun i hi => (hw i).2.2 (by omega)),
      total_of 3 u u' hu (fun i hi => (gw i).2.1 (by omega)) (fun i hi => (gw i).2.2 (by omega))⟩

/-- C138: if the plaintexts differ in one byte, then one lookup of the first round differs, four of the second, and all
sixteen of the third. -/
theorem C138_spread_encrypt {c : Aes.Aes} (hc : BuiltAes c) (p p' : Vector U8 16) (h1 : differing p.toList p'.toList = 1) :
    ∃ v t v' t', encryptT c p = .ok (v, t) ∧ encryptT c p' = .ok (v', t') ∧
      differing (roundsOf 0 1 t) (roundsOf 0 1 t') = 1 ∧ differing (roundsOf 1 1 t) (roundsOf 1 1 t') = 4 ∧
      differing (roundsOf 2 1 t) (roundsOf 2 1 t') = 16 := by
  have hr := hc.rounds_eq
  obtain ⟨v, t, h, _⟩ := encrypt_trace c (by omega) hc.length p
  obtain ⟨v', t', h', _⟩ := encrypt_trace c (by omega) hc.length p'
  obtain ⟨l, k, e1, e2, e3, e4, e5⟩ := enc_record c (by omega) p p' _ _ h h'
  refine ⟨v, t, v', t', h, h', ?_⟩
  simp only at e1 e2
  rw [e1, e2, differing_rounds, differing_rounds, differing_rounds]
  have hp : Aes.total (Aes.pat (Aes.addKey k p, Aes.addKey k p')) = 1 := by
    rw [← h1, differing_pat, total_addKey]
  match l, e3 with
  | [], e | [_], e | [_, _], e => simp at e; omega
  | x :: y :: z :: l, _ =>
    simp only [List.head?_cons, Option.some.injEq] at e5
    rw [List.isChain_cons_cons, List.isChain_cons_cons] at e4
    subst e5
    obtain ⟨ha, hb⟩ := Aes.spread e4.1 e4.2.1 hp
    simp [hp, ha, hb]

/-- C138: the same for the decryption of ciphertexts that differ in one byte. -/
theorem C138_spread_decrypt {c : Aes.Aes} (hc : BuiltAes c) (p p' : Vector U8 16) (h1 : differing p.toList p'.toList = 1) :
    ∃ v t v' t', decryptT c p = .ok (v, t) ∧ decryptT c p' = .ok (v', t') ∧
      differing (roundsOf 0 1 t) (roundsOf 0 1 t') = 1 ∧ differing (roundsOf 1 1 t) (roundsOf 1 1 t') = 4 ∧
      differing (roundsOf 2 1 t) (roundsOf 2 1 t') = 16 := by
  have hr := hc.rounds_eq
  obtain ⟨v, t, h, _⟩ := decrypt_trace c hc.length (by omega) p
  obtain ⟨v', t', h', _⟩ := decrypt_trace c hc.length (by omega) p'
  obtain ⟨l, k, e1, e2, e3, e4, e5⟩ := dec_record c (by omega) p p' _ _ h h'
  refine ⟨v, t, v', t', h, h', ?_⟩
  simp only at e1 e2
  rw [e1, e2, differing_rounds, differing_rounds, differing_rounds]
  have hp : Aes.total (Aes.pat (Aes.unshiftRows (Aes.addKey k p), Aes.unshiftRows (Aes.addKey k p'))) = 1 := by
    rw [← h1, differing_pat, total_unshift, total_addKey]
  match l, e3 with
  | [], e | [_], e | [_, _], e => simp at e; omega
  | x :: y :: z :: l, _ =>
    simp only [List.head?_cons, Option.some.injEq] at e5
    rw [List.isChain_cons_cons, List.isChain_cons_cons] at e4
    subst e5
    obtain ⟨ha, hb⟩ := Aes.spread_back e4.1 e4.2.1 hp
    simp [hp, ha, hb]

/-- C138: each lookup hides differences as well as the field allows: whatever two inputs of the S-box differ by, each
difference of the outputs occurs for at most 4 of the 256 inputs. -/
theorem C138_sbox (a b : U8) (ha : a ≠ 0#8) :
    (Finset.univ.filter fun x : Fin 256 => Aes.sub (BitVec.ofFin x ^^^ a) ^^^ Aes.sub (BitVec.ofFin x) = b).card ≤ 4 := by
  obtain ⟨x₁, h⟩ := Aes.sbox_uniform a b ha
  have hs : (Finset.univ.filter fun x : Fin 256 => Aes.sub (BitVec.ofFin x ^^^ a) ^^^ Aes.sub (BitVec.ofFin x) = b) ⊆
      {(0#8).toFin, a.toFin, x₁.toFin, (x₁ ^^^ a).toFin} := by
    intro x hx
    rw [Finset.mem_filter] at hx
    simp only [Finset.mem_insert, Finset.mem_singleton]
    rcases h _ hx.2 with e | e | e | e <;> have := congrArg BitVec.toFin e <;> simp only at this
    · exact Or.inl this
    · exact Or.inr (Or.inl this)
    · exact Or.inr (Or.inr (Or.inl this))
    · exact Or.inr (Or.inr (Or.inr this))
  exact le_trans (Finset.card_le_card hs) Finset.card_le_four

/-- Two blocks that differ in one bit. -/
theorem one_bit : (Vector.replicate 16 0#8 : Vector U8 16) ≠ (Vector.replicate 16 0#8).set 5 1#8 := by decide

example : ∃ c v t v' t', Aes.with128 (Vector.replicate 16 7#8) = .ok c ∧
    encryptT c (Vector.replicate 16 0#8) = .ok (v, t) ∧
    encryptT c ((Vector.replicate 16 0#8).set 5 1#8) = .ok (v', t') ∧ 25 ≤ differing (roundsOf 3 4 t) (roundsOf 3 4 t') := by
  obtain ⟨c, hc⟩ := (C20_aes_total (Vector.replicate 16 7#8) (Vector.replicate 24 7#8) (Vector.replicate 32 7#8)).1
  obtain ⟨c', w, h1, h2, _⟩ := with128_spec (Vector.replicate 16 7#8)
  rw [hc] at h1
  cases h1
  obtain ⟨v, t, v', t', h, h', hw⟩ := C138_encrypt (BuiltAes.k128 _ _ hc) (Vector.replicate 16 0#8)
    ((Vector.replicate 16 0#8).set 5 1#8) one_bit
  exact ⟨c, v, t, v', t', hc, h, h', (hw 3).2.2 (by omega)⟩
example : ∃ c v t v' t', Aes.with256 (Vector.replicate 32 7#8) = .ok c ∧
    decryptT c (Vector.replicate 16 0#8) = .ok (v, t) ∧
    decryptT c ((Vector.replicate 16 0#8).set 5 1#8) = .ok (v', t') ∧ 25 ≤ differing (roundsOf 10 4 t) (roundsOf 10 4 t') := by
  obtain ⟨c, hc⟩ := (C20_aes_total (Vector.replicate 16 7#8) (Vector.replicate 24 7#8) (Vector.replicate 32 7#8)).2.2
  obtain ⟨c', w, h1, h2, _⟩ := with256_spec (Vector.replicate 32 7#8)
  rw [hc] at h1
  cases h1
  obtain ⟨v, t, v', t', h, h', hw⟩ := C138_decrypt (BuiltAes.k256 _ _ hc) (Vector.replicate 16 0#8)
    ((Vector.replicate 16 0#8).set 5 1#8) one_bit
  exact ⟨c, v, t, v', t', hc, h, h', (hw 10).2.2 (by omega)⟩
example : ∃ c, Aes.with192 (Vector.replicate 24 7#8) = .ok c ∧ ∃ v t v' t', encryptT c (Vector.replicate 16 0#8) = .ok (v, t) ∧
    encryptT c ((Vector.replicate 16 0#8).set 5 1#8) = .ok (v', t') ∧ 75 ≤ differing t t' := by
  obtain ⟨c', w, hc, h2, _⟩ := with192_spec (Vector.replicate 24 7#8)
  obtain ⟨v, t, v', t', _, _, _, _, h, h', _, _, _, hw, _⟩ := C138_all (BuiltAes.k192 _ _ hc) (Vector.replicate 16 0#8)
    ((Vector.replicate 16 0#8).set 5 1#8) one_bit
  exact ⟨c', hc, v, t, v', t', h, h', (hw h2).1⟩
example {c : Aes.Aes} (hc : BuiltAes c) : ∃ v t v' t', encryptT c (Vector.replicate 16 0#8) = .ok (v, t) ∧
    encryptT c ((Vector.replicate 16 0#8).set 5 1#8) = .ok (v', t') ∧ differing (roundsOf 2 1 t) (roundsOf 2 1 t') = 16 := by
  obtain ⟨v, t, v', t', h, h', _, _, hw⟩ := C138_spread_encrypt hc (Vector.replicate 16 0#8)
    ((Vector.replicate 16 0#8).set 5 1#8) (by decide)
  exact ⟨v, t, v', t', h, h', hw⟩
example {c : Aes.Aes} (hc : BuiltAes c) : ∃ v t v' t', decryptT c (Vector.replicate 16 0#8) = .ok (v, t) ∧
    decryptT c ((Vector.replicate 16 0#8).set 5 1#8) = .ok (v', t') ∧ differing (roundsOf 2 1 t) (roundsOf 2 1 t') = 16 := by
  obtain ⟨v, t, v', t', h, h', _, _, hw⟩ := C138_spread_decrypt hc (Vector.replicate 16 0#8)
    ((Vector.replicate 16 0#8).set 5 1#8) (by decide)
  exact ⟨v, t, v', t', h, h', hw⟩
/-- The bound for the S-box is reached: for the difference 1 there is a difference that occurs four times. -/
example : ([0#8, 1#8, 0xbc#8, 0xbd#8].map fun x => Aes.sub (x ^^^ 1#8) ^^^ Aes.sub x) = List.replicate 4 0x1f#8 := by
  decide +kernel

end Verif.Props
