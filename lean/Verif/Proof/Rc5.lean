import Verif.Model.Rc5
import Verif.Spec.Rc5
import Verif.Proof.Words

namespace Verif.Model.Rc5
open Verif

/-- The list holds the first `n` entries of the table. -/
def Same (l : List U32) (n : Nat) (T : Nat → U32) : Prop := l.length = n ∧ ∀ i (h : i < l.length), l[i] = T i

theorem Same.idx {l : List U32} {n : Nat} {T : Nat → U32} (h : Same l n T) {i : Nat} (hi : i < n) :
    idx l i = .ok (T i) := by
  rw [idx_ok (by rw [h.1]; exact hi), h.2]

theorem Same.set {l : List U32} {n : Nat} {T : Nat → U32} (h : Same l n T) (i : Nat) (v : U32) :
    Same (l.set i v) n (Spec.Rc5.put T i v) := by
  refine ⟨by simp [h.1], ?_⟩
  intro k hk
  rw [List.getElem_set, Spec.Rc5.put]
  by_cases e : i = k
  · subst e; simp
  · have : k ≠ i := fun x => e x.symm
    simp [e, this]; exact h.2 k _

theorem arith (v q : U32) (i : Nat) : v + q + BitVec.ofNat 32 i * q = v + BitVec.ofNat 32 (i + 1) * q := by
  rw [BitVec.add_assoc, BitVec.ofNat_add, BitVec.add_mul, BitVec.one_mul, BitVec.add_comm q]

theorem arith0 (v q : U32) : v + BitVec.ofNat 32 0 * q = v := by simp

theorem initTable_same (n : Nat) (v : U32) :
    Same (initTable n v) n (fun i => v + BitVec.ofNat 32 i * Q32) := by
  induction n generalizing v with
  | zero => exact ⟨rfl, fun i h => absurd h (by simp [initTable])⟩
  | succ n ih =>
    obtain ⟨h1, h2⟩ := ih (v + Q32)
    refine ⟨by simp [initTable, h1], ?_⟩
    intro i hi
    cases i with
    | zero =>
      simp only [initTable, List.getElem_cons_zero]
      exact (arith0 v Q32).symm
    | succ i =>
      have h3 : i < (initTable n (v + Q32)).length := by simpa [initTable] using hi
      have h4 : (initTable n (v + Q32))[i] = v + BitVec.ofNat 32 (i + 1) * Q32 :=
        (h2 i h3).trans (arith v Q32 i)
      refine Eq.trans ?_ h4
      simp only [initTable]
      rw [List.getElem_cons_succ]

theorem keyWords_same (K : List U8) : Same (keyWords K) ((K.length + 3) / 4) (Spec.Rc5.keyWord K) := by
  induction K using keyWords.induct with
  | case1 => exact ⟨rfl, fun i h => absurd h (by simp [keyWords])⟩
  | case2 a =>
    refine ⟨by simp [keyWords], fun i h => ?_⟩
    have : i = 0 := by simpa [keyWords] using h
    subst this
    simp only [keyWords, List.getElem_cons_zero, leU32_eq]
    simp [Spec.Rc5.keyWord]
  | case3 a b =>
    refine ⟨by simp [keyWords], fun i h => ?_⟩
    have : i = 0 := by simpa [keyWords] using h
    subst this
    simp only [keyWords, List.getElem_cons_zero, leU32_eq]
    simp [Spec.Rc5.keyWord]
  | case4 a b c =>
    refine ⟨by simp [keyWords], fun i h => ?_⟩
    have : i = 0 := by simpa [keyWords] using h
    subst this
    simp only [keyWords, List.getElem_cons_zero, leU32_eq]
    simp [Spec.Rc5.keyWord]
  | case5 a b c d rest ih =>
    obtain ⟨h1, h2⟩ := ih
    refine ⟨by simp [keyWords, h1]; omega, fun i h => ?_⟩
    cases i with
    | zero =>
      simp only [keyWords, List.getElem_cons_zero, leU32_eq]
      simp [Spec.Rc5.keyWord]
    | succ i =>
      simp only [keyWords, List.getElem_cons_succ]
      rw [h2 i (by simpa [keyWords] using h)]
      simp only [Spec.Rc5.keyWord]
      have e : ∀ k, (a :: b :: c :: d :: rest).getD (4 * (i + 1) + k) 0 = rest.getD (4 * i + k) 0 := by
        intro k
        rw [show 4 * (i + 1) + k = (4 * i + k) + 1 + 1 + 1 + 1 by omega]
        simp only [List.getD_cons_succ]
      have e0 := e 0
      simp only [Nat.add_zero] at e0
      rw [e0, e 1, e 2, e 3]

theorem P32_eq : P32 = Spec.Rc5.P := by decide
theorem Q32_eq : Q32 = Spec.Rc5.Q := by decide

theorem mixLoop_snoc (t c n : Nat) (m : Mix) :
    mixLoop t c (n + 1) m = (do mixStep t c (← mixLoop t c n m)) := by
  induction n generalizing m with
  | zero =>
    simp only [mixLoop]
    cases h : mixStep t c m <;> simp [bind, Except.bind, h]
  | succ n ih =>
    rw [mixLoop]
    cases h : mixStep t c m with
    | error e => simp [mixLoop, h, bind, Except.bind]
    | ok m' => simp only [bind, Except.bind, ih m']; rw [mixLoop]; simp only [h, bind, Except.bind]

theorem mixLoop_spec (K : List U8) (t c : Nat) (ht : 0 < t) (hc : 0 < c) (hcK : c = (K.length + 3) / 4) (n : Nat) :
    ∃ m, mixLoop t c n ⟨initTable t P32, keyWords K, 0, 0, 0#32, 0#32⟩ = .ok m ∧
      Same m.s t (Spec.Rc5.mixed K t c n).S ∧ Same m.l c (Spec.Rc5.mixed K t c n).L ∧
      m.a = (Spec.Rc5.mixed K t c n).A ∧ m.b = (Spec.Rc5.mixed K t c n).B ∧ m.i = n % t ∧ m.j = n % c := by
  induction n with
  | zero =>
    refine ⟨_, rfl, ?_, ?_, rfl, rfl, ?_, ?_⟩
    · have h := initTable_same t P32
      rw [P32_eq, Q32_eq] at h
      rw [P32_eq]
      exact h
    · rw [hcK]; exact keyWords_same K
    · simp
    · simp
  | succ n ih =>
    obtain ⟨m, h1, h2, h3, h4, h5, h6, h7⟩ := ih
    rw [mixLoop_snoc, h1]
    have hi : m.i < t := by rw [h6]; exact Nat.mod_lt _ ht
    have hj : m.j < c := by rw [h7]; exact Nat.mod_lt _ hc
    simp only [bind, Except.bind, mixStep, h2.idx hi, h3.idx hj, if_neg (Nat.pos_iff_ne_zero.1 ht),
      if_neg (Nat.pos_iff_ne_zero.1 hc)]
    refine ⟨_, rfl, ?_⟩
    simp only [Spec.Rc5.mixed, rotateLeft_mod32, ← h4, ← h5, ← h6, ← h7, BitVec.add_assoc]
    refine ⟨h2.set _ _, h3.set _ _, trivial, trivial, ?_, ?_⟩
    · rw [h6, Nat.mod_add_mod]
    · rw [h7, Nat.mod_add_mod]

theorem expandKey_spec (K : List U8) (hK : K ≠ []) (r : U8) :
    ∃ s, expandKey K r = .ok s ∧ Same s (2 * (r.toNat + 1)) (Spec.Rc5.table K r.toNat) := by
  have hl : 0 < K.length := List.length_pos_iff.2 hK
  obtain ⟨m, h1, h2, _⟩ := mixLoop_spec K (2 * (r.toNat + 1)) ((K.length + 3) / 4) (by omega) (by omega) rfl
    (3 * max (2 * (r.toNat + 1)) ((K.length + 3) / 4))
  refine ⟨m.s, ?_, h2⟩
  simp [expandKey, h1, bind, Except.bind]

theorem new_spec (K : List U8) (hK : K ≠ []) (hK' : K.length < 256) (r : U8) :
    ∃ k, new K r = .ok k ∧ k.r = r ∧ Same k.s (2 * (r.toNat + 1)) (Spec.Rc5.table K r.toNat) := by
  obtain ⟨s, h1, h2⟩ := expandKey_spec K hK r
  exact ⟨⟨s, r⟩, by simp [new, hK', h1, bind, Except.bind], rfl, h2⟩

theorem new_long (K : List U8) (hK : 256 ≤ K.length) (r : U8) : new K r = .error .assertion := by
  simp [new, show ¬ K.length < 256 by omega]

theorem new_nil (r : U8) : new [] r = .error .index := by
  have h0 : initTable (2 * (r.toNat + 1)) P32 = P32 :: initTable (2 * r.toNat + 1) (P32 + Q32) := by
    rw [show 2 * (r.toNat + 1) = (2 * r.toNat + 1) + 1 by omega]; rfl
  have h1 : 3 * max (2 * (r.toNat + 1)) 0 = (3 * max (2 * (r.toNat + 1)) 0 - 1) + 1 := by omega
  simp only [new, expandKey, List.length_nil, keyWords]
  rw [show (0 + 3) / 4 = 0 by decide, h1, mixLoop]
  simp [mixStep, h0, idx, bind, Except.bind]

/-! ## The rounds -/

/-- One forward round on words. -/
def roundP (S : Nat → U32) (i : Nat) (ab : U32 × U32) : U32 × U32 :=
  let a' := (ab.1 ^^^ ab.2).rotateLeft ab.2.toNat + S (2 * i)
  (a', (ab.2 ^^^ a').rotateLeft a'.toNat + S (2 * i + 1))

/-- One backward round on words. -/
def unroundP (S : Nat → U32) (i : Nat) (ab : U32 × U32) : U32 × U32 :=
  let b' := (ab.2 - S (2 * i + 1)).rotateRight ab.1.toNat ^^^ ab.1
  ((ab.1 - S (2 * i)).rotateRight b'.toNat ^^^ b', b')

theorem unround_round (S : Nat → U32) (i : Nat) (ab : U32 × U32) : unroundP S i (roundP S i ab) = ab := by
  obtain ⟨a, b⟩ := ab
  simp only [unroundP, roundP, BitVec.add_sub_cancel, rotR_rotL, BitVec.xor_assoc, BitVec.xor_self,
    BitVec.xor_zero]

theorem round_unround (S : Nat → U32) (i : Nat) (ab : U32 × U32) : roundP S i (unroundP S i ab) = ab := by
  obtain ⟨a, b⟩ := ab
  simp only [unroundP, roundP, BitVec.xor_assoc, BitVec.xor_self, BitVec.xor_zero, rotL_rotR,
    BitVec.sub_add_cancel]

/-- Forward rounds `i .. i+n-1`. -/
def roundsP (S : Nat → U32) : Nat → Nat → U32 × U32 → U32 × U32
  | 0, _, ab => ab
  | n + 1, i, ab => roundsP S n (i + 1) (roundP S i ab)

/-- Backward rounds `n .. 1`. -/
def unroundsP (S : Nat → U32) : Nat → U32 × U32 → U32 × U32
  | 0, ab => ab
  | n + 1, ab => unroundsP S n (unroundP S (n + 1) ab)

theorem roundsP_snoc (S : Nat → U32) (n i : Nat) (ab : U32 × U32) :
    roundsP S (n + 1) i ab = roundP S (i + n) (roundsP S n i ab) := by
  induction n generalizing i ab with
  | zero => rfl
  | succ n ih =>
    rw [roundsP, ih, roundsP]
    congr 1; omega

theorem unrounds_rounds (S : Nat → U32) (n : Nat) (ab : U32 × U32) :
    unroundsP S n (roundsP S n 1 ab) = ab := by
  induction n with
  | zero => rfl
  | succ n ih => rw [roundsP_snoc, unroundsP, Nat.add_comm 1 n, unround_round, ih]

theorem rounds_unrounds (S : Nat → U32) (n : Nat) (ab : U32 × U32) :
    roundsP S n 1 (unroundsP S n ab) = ab := by
  induction n generalizing ab with
  | zero => rfl
  | succ n ih => rw [roundsP_snoc, unroundsP, ih, Nat.add_comm 1 n, round_unround]

theorem encRounds_eq {s : List U32} {t : Nat} {S : Nat → U32} (h : Same s t S) (n i : Nat)
    (hn : 2 * (i + n) ≤ t) (ab : U32 × U32) : encRounds s n i ab = .ok (roundsP S n i ab) := by
  induction n generalizing i ab with
  | zero => rfl
  | succ n ih =>
    obtain ⟨a, b⟩ := ab
    simp only [encRounds, h.idx (show 2 * i < t by omega), h.idx (show 2 * i + 1 < t by omega),
      bind, Except.bind, ih (i + 1) (by omega)]
    rfl

theorem decRounds_eq {s : List U32} {t : Nat} {S : Nat → U32} (h : Same s t S) (n : Nat)
    (hn : 2 * (n + 1) ≤ t) (ab : U32 × U32) : decRounds s n ab = .ok (unroundsP S n ab) := by
  induction n generalizing ab with
  | zero => rfl
  | succ n ih =>
    obtain ⟨a, b⟩ := ab
    simp only [decRounds, h.idx (show 2 * (n + 1) < t by omega), h.idx (show 2 * (n + 1) + 1 < t by omega),
      bind, Except.bind, ih (by omega)]
    rfl

theorem encWords_eq (S : Nat → U32) (A B : U32) (n : Nat) :
    Spec.Rc5.encWords S A B n = roundsP S n 1 (A + S 0, B + S 1) := by
  induction n with
  | zero => rfl
  | succ n ih =>
    rw [roundsP_snoc, ← ih, Spec.Rc5.encWords]
    simp only [roundP, rotateLeft_mod32, Nat.add_comm 1 n]

/-- What holds of every RC5 object the constructor returns. -/
def Wf (k : RC5) : Prop := ∃ S, Same k.s (2 * (k.r.toNat + 1)) S

theorem encrypt32_eq {k : RC5} {S : Nat → U32} (h : Same k.s (2 * (k.r.toNat + 1)) S) (a b : U32) :
    encrypt32 k a b = .ok (Spec.Rc5.encWords S a b k.r.toNat) := by
  rw [encWords_eq]
  simp only [encrypt32, h.idx (show 0 < 2 * (k.r.toNat + 1) by omega),
    h.idx (show 1 < 2 * (k.r.toNat + 1) by omega), bind, Except.bind]
  exact encRounds_eq h _ _ (by omega) _

theorem decrypt32_eq {k : RC5} {S : Nat → U32} (h : Same k.s (2 * (k.r.toNat + 1)) S) (a b : U32) :
    decrypt32 k a b = .ok ((unroundsP S k.r.toNat (a, b)).1 - S 0, (unroundsP S k.r.toNat (a, b)).2 - S 1) := by
  simp only [decrypt32, h.idx (show 0 < 2 * (k.r.toNat + 1) by omega),
    h.idx (show 1 < 2 * (k.r.toNat + 1) by omega), bind, Except.bind, decRounds_eq h _ (Nat.le_refl _)]

theorem dec_enc_32 {k : RC5} (h : Wf k) (a b : U32) :
    (do let (x, y) ← encrypt32 k a b; decrypt32 k x y) = .ok (a, b) := by
  obtain ⟨S, h⟩ := h
  rw [encrypt32_eq h]
  simp only [bind, Except.bind, decrypt32_eq h, encWords_eq]
  rw [unrounds_rounds]
  simp only [BitVec.add_sub_cancel]

theorem enc_dec_32 {k : RC5} (h : Wf k) (a b : U32) :
    (do let (x, y) ← decrypt32 k a b; encrypt32 k x y) = .ok (a, b) := by
  obtain ⟨S, h⟩ := h
  rw [decrypt32_eq h]
  simp only [bind, Except.bind, encrypt32_eq h, encWords_eq, BitVec.sub_add_cancel]
  rw [rounds_unrounds]

theorem leU32_joinBlock (a b : U32) :
    leU32 (joinBlock a b)[0] (joinBlock a b)[1] (joinBlock a b)[2] (joinBlock a b)[3] = a ∧
    leU32 (joinBlock a b)[4] (joinBlock a b)[5] (joinBlock a b)[6] (joinBlock a b)[7] = b :=
  ⟨leU32_extract a, leU32_extract b⟩

theorem joinBlock_leU32 (p : Vector U8 8) :
    joinBlock (leU32 p[0] p[1] p[2] p[3]) (leU32 p[4] p[5] p[6] p[7]) = p := by
  obtain ⟨h0, h1, h2, h3⟩ := extract_leU32 p[0] p[1] p[2] p[3]
  obtain ⟨h4, h5, h6, h7⟩ := extract_leU32 p[4] p[5] p[6] p[7]
  apply Vector.ext
  intro i hi
  match i, hi with
  | 0, _ => exact h0
  | 1, _ => exact h1
  | 2, _ => exact h2
  | 3, _ => exact h3
  | 4, _ => exact h4
  | 5, _ => exact h5
  | 6, _ => exact h6
  | 7, _ => exact h7

theorem dec_enc {k : RC5} (h : Wf k) (p : Vector U8 8) :
    ∃ c, encrypt k p = .ok c ∧ decrypt k c = .ok p := by
  have h1 := dec_enc_32 h (leU32 p[0] p[1] p[2] p[3]) (leU32 p[4] p[5] p[6] p[7])
  cases he : encrypt32 k (leU32 p[0] p[1] p[2] p[3]) (leU32 p[4] p[5] p[6] p[7]) with
  | error e => rw [he] at h1; cases h1
  | ok xy =>
    obtain ⟨x, y⟩ := xy
    rw [he] at h1
    simp only [bind, Except.bind] at h1
    refine ⟨joinBlock x y, ?_, ?_⟩
    · simp only [encrypt, he, bind, Except.bind]
    · simp only [decrypt, leU32_joinBlock x y, h1, bind, Except.bind, joinBlock_leU32]

theorem enc_dec {k : RC5} (h : Wf k) (p : Vector U8 8) :
    ∃ c, decrypt k p = .ok c ∧ encrypt k c = .ok p := by
  have h1 := enc_dec_32 h (leU32 p[0] p[1] p[2] p[3]) (leU32 p[4] p[5] p[6] p[7])
  cases he : decrypt32 k (leU32 p[0] p[1] p[2] p[3]) (leU32 p[4] p[5] p[6] p[7]) with
  | error e => rw [he] at h1; cases h1
  | ok xy =>
    obtain ⟨x, y⟩ := xy
    rw [he] at h1
    simp only [bind, Except.bind] at h1
    refine ⟨joinBlock x y, ?_, ?_⟩
    · simp only [decrypt, he, bind, Except.bind]
    · simp only [encrypt, leU32_joinBlock x y, h1, bind, Except.bind, joinBlock_leU32]

theorem joinBlock_toList (a b : U32) : (joinBlock a b).toList = Spec.Rc5.bytes a b := by
  have h : ∀ (w : U32) (i : Nat), byteLE w i = BitVec.ofNat 8 (w.toNat / 2 ^ (8 * i)) := by
    intro w i
    apply BitVec.eq_of_toNat_eq
    simp [byteLE, BitVec.extractLsb'_toNat, Nat.shiftRight_eq_div_pow]
  simp [Spec.Rc5.bytes, natToLE4, joinBlock, h]

theorem encrypt_spec {k : RC5} {S : Nat → U32} (h : Same k.s (2 * (k.r.toNat + 1)) S) (p : Vector U8 8) :
    ∃ c, encrypt k p = .ok c ∧ c.toList = Spec.Rc5.bytes
      (Spec.Rc5.encWords S (leU32 p[0] p[1] p[2] p[3]) (leU32 p[4] p[5] p[6] p[7]) k.r.toNat).1
      (Spec.Rc5.encWords S (leU32 p[0] p[1] p[2] p[3]) (leU32 p[4] p[5] p[6] p[7]) k.r.toNat).2 := by
  simp only [encrypt, encrypt32_eq h, bind, Except.bind]
  exact ⟨_, rfl, joinBlock_toList _ _⟩

end Verif.Model.Rc5
