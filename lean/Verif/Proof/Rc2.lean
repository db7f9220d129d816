import Verif.Model.Rc2
import Verif.Spec.Rc2
import Verif.Proof.Words

namespace Verif.Model.Rc2
open Verif

/-! ## Table and small pieces -/

theorem pi_table : ∀ n : Fin 256, PITABLE[n.val] = BitVec.ofNat 8 (Spec.Rc2.PITABLE.getD n.val 0) := by
  decide +kernel

theorem pi_eq (b : U8) : pi b = Spec.Rc2.pi b := pi_table ⟨b.toNat, b.isLt⟩

theorem tm_table : ∀ n : Fin 8, (0xff#8 >>> ((8 - n.val) % 8)) =
    BitVec.ofNat 8 (255 % 2 ^ (if n.val = 0 then 8 else n.val)) := by decide

theorem tm_eq (bits : U16) :
    (0xff#8 >>> ((0#16 - bits) &&& 7#16).toNat : U8) = Spec.Rc2.TM bits.toNat := by
  have h1 : ((0#16 - bits) &&& 7#16).toNat = (8 - bits.toNat % 8) % 8 := by
    rw [BitVec.toNat_and, BitVec.toNat_sub]
    show (2 ^ 16 - bits.toNat + 0) % 2 ^ 16 &&& (2 ^ 3 - 1) = _
    rw [Nat.and_two_pow_sub_one_eq_mod]
    have := bits.isLt
    omega
  have h2 : 8 + bits.toNat - 8 * Spec.Rc2.T8 bits.toNat =
      if bits.toNat % 8 = 0 then 8 else bits.toNat % 8 := by
    unfold Spec.Rc2.T8
    split <;> omega
  rw [h1, Spec.Rc2.TM, h2]
  exact tm_table ⟨bits.toNat % 8, Nat.mod_lt _ (by decide)⟩

theorem vidx_ok {α : Type} {n : Nat} {v : Vector α n} {i : Nat} (h : i < n) : vidx v i = .ok v[i] := by
  simp [vidx, h]
theorem vidx_error {α : Type} {n : Nat} {v : Vector α n} {i : Nat} (h : n ≤ i) : vidx v i = .error .index := by
  simp [vidx, show ¬ i < n by omega]
theorem vset_ok {α : Type} {n : Nat} {v : Vector α n} {i : Nat} {a : α} (h : i < n) :
    vset v i a = .ok (v.set i a) := by
  simp [vset, h]
theorem subU_ok {a b : Nat} (h : b ≤ a) : subU a b = .ok (a - b) := by simp [subU, h]
theorem subU_error {a b : Nat} (h : a < b) : subU a b = .error .overflow := by
  simp [subU, show ¬ b ≤ a by omega]

/-! ## Key expansion -/

theorem expand1_spec (t : Nat) (ht : 1 ≤ t) (n i : Nat) (hi : i + n = 128) (hti : t ≤ i) (l : Vector U8 128) :
    ∃ l', expand1 t n i l = .ok l' ∧ (∀ k (h : k < 128), k < i → l'[k] = l[k]) ∧
      ∀ k (h : k < 128), i ≤ k → l'[k] = pi (l'[k - 1] + l'[k - t]) := by
  induction n generalizing i l with
  | zero => exact ⟨l, rfl, fun _ _ _ => rfl, fun k h hk => absurd h (by omega)⟩
  | succ n ih =>
    obtain ⟨l', h1, h2, h3⟩ := ih (i + 1) (by omega) (by omega)
      (l.set i (pi (l[i - 1] + l[i - t])) (by omega))
    refine ⟨l', ?_, ?_, ?_⟩
    · simp only [expand1, subU_ok (show 1 ≤ i by omega), subU_ok hti, bind, Except.bind,
        vidx_ok (show i - 1 < 128 by omega), vidx_ok (show i - t < 128 by omega),
        vset_ok (show i < 128 by omega)]
      rw [h1]
    · intro k hk hlt
      rw [h2 k hk (by omega), Vector.getElem_set_ne _ _ (by omega)]
    · intro k hk hle
      rcases Nat.eq_or_lt_of_le hle with rfl | hlt
      · rw [h2 i hk (by omega), h2 (i - 1) (by omega) (by omega), h2 (i - t) (by omega) (by omega),
          Vector.getElem_set_self, Vector.getElem_set_ne _ _ (by omega), Vector.getElem_set_ne _ _ (by omega)]
      · exact h3 k hk hlt

theorem expand2_spec (t8 : Nat) (ht : 1 ≤ t8) (n : Nat) (hn : n + t8 ≤ 128) (l : Vector U8 128) :
    ∃ l', expand2 t8 n l = .ok l' ∧ (∀ k (h : k < 128), n ≤ k → l'[k] = l[k]) ∧
      ∀ k (h : k < n), l'[k] = pi (l'[k + 1] ^^^ l'[k + t8]) := by
  induction n generalizing l with
  | zero => exact ⟨l, rfl, fun _ _ _ => rfl, fun k h => absurd h (by omega)⟩
  | succ n ih =>
    obtain ⟨l', h1, h2, h3⟩ := ih (by omega) (l.set n (pi (l[n + 1] ^^^ l[n + t8])) (by omega))
    refine ⟨l', ?_, ?_, ?_⟩
    · simp only [expand2, bind, Except.bind, vidx_ok (show n + 1 < 128 by omega),
        vidx_ok (show n + t8 < 128 by omega), vset_ok (show n < 128 by omega)]
      rw [h1]
    · intro k hk hle
      rw [h2 k hk (by omega), Vector.getElem_set_ne _ _ (by omega)]
    · intro k hk
      rcases Nat.eq_or_lt_of_le (Nat.le_of_lt_succ hk) with rfl | hlt
      · rw [h2 k (by omega) (by omega), h2 (k + 1) (by omega) (by omega), h2 (k + t8) (by omega) (by omega),
          Vector.getElem_set_self, Vector.getElem_set_ne _ _ (by omega), Vector.getElem_set_ne _ _ (by omega)]
      · exact h3 k hlt

/-- A fixed array as a table. -/
def tab (l : Vector U8 128) (i : Nat) : U8 := if h : i < 128 then l[i] else 0

theorem tab_lt (l : Vector U8 128) {i : Nat} (h : i < 128) : tab l i = l[i] := by simp [tab, h]

theorem expandKey_spec (key : List U8) (h1 : 1 ≤ key.length) (h2 : key.length ≤ 128) (bits : U16)
    (h3 : 1 ≤ bits.toNat) (h4 : bits.toNat ≤ 1024) :
    ∃ k L1 L2, expandKey key bits = .ok k ∧ Spec.Rc2.Expansion key bits.toNat L1 L2 ∧
      ∀ i (h : i < 64), k[i] = Spec.Rc2.keyWord L2 i := by
  have hT8 : 1 ≤ Spec.Rc2.T8 bits.toNat ∧ Spec.Rc2.T8 bits.toNat ≤ 128 := by
    unfold Spec.Rc2.T8; omega
  obtain ⟨hT8a, hT8b⟩ := hT8
  have eT8 : (bits.toNat + 7) / 8 = Spec.Rc2.T8 bits.toNat := rfl
  obtain ⟨la, ha, ha1, ha2⟩ := expand1_spec key.length h1 (128 - key.length) key.length (by omega)
    (Nat.le_refl _) (Vector.ofFn fun i => if h : i.val < key.length then key[i.val] else 0#8)
  have hk : 128 - Spec.Rc2.T8 bits.toNat < 128 := by omega
  obtain ⟨lb, hb, hb1, hb2⟩ := expand2_spec (Spec.Rc2.T8 bits.toNat) hT8a (128 - Spec.Rc2.T8 bits.toNat)
    (by omega) (la.set (128 - Spec.Rc2.T8 bits.toNat)
      (pi (la[128 - Spec.Rc2.T8 bits.toNat] &&& Spec.Rc2.TM bits.toNat)) hk)
  refine ⟨Vector.ofFn fun i => leU16 lb[i.val * 2] lb[i.val * 2 + 1], tab la, tab lb, ?_, ?_, ?_⟩
  · simp only [expandKey, if_neg (show ¬ 128 < key.length by omega), ha, bind, Except.bind, tm_eq, eT8,
      subU_ok hT8b, vidx_ok hk, vset_ok hk, hb]
  · constructor
    · intro i hi
      rw [tab_lt la (by omega), ha1 i (by omega) hi]
      simp [hi]
    · intro i hle hlt
      rw [tab_lt la hlt, tab_lt la (show i - 1 < 128 by omega), tab_lt la (show i - key.length < 128 by omega),
        ha2 i hlt hle, pi_eq]
    · intro i hlt hlt'
      rw [tab_lt lb hlt', tab_lt la hlt', hb1 i hlt' (by omega), Vector.getElem_set_ne _ _ (by omega)]
    · rw [tab_lt lb hk, tab_lt la hk, hb1 _ hk (Nat.le_refl _), Vector.getElem_set_self, pi_eq]
    · intro i hlt
      rw [tab_lt lb (by omega), tab_lt lb (show i + 1 < 128 by omega),
        tab_lt lb (show i + Spec.Rc2.T8 bits.toNat < 128 by omega), hb2 i hlt, pi_eq]
  · intro i hi
    rw [Vector.getElem_ofFn, Spec.Rc2.keyWord, tab_lt lb (show 2 * i < 128 by omega),
      tab_lt lb (show 2 * i + 1 < 128 by omega)]
    apply BitVec.eq_of_toNat_eq
    rw [leU16_toNat, BitVec.toNat_ofNat]
    have e1 : i * 2 = 2 * i := by omega
    simp only [e1]
    rw [Nat.mod_eq_of_lt]
    have := (lb[2 * i]).isLt; have := (lb[2 * i + 1]).isLt
    omega

theorem expandKey_panics (key : List U8) (bits : U16)
    (h : key.length = 0 ∨ 128 < key.length ∨ bits.toNat = 0 ∨ 1024 < bits.toNat) :
    ∃ e, expandKey key bits = .error e := by
  by_cases hl : 128 < key.length
  · exact ⟨.index, by simp only [expandKey, if_pos hl]⟩
  by_cases h0 : key.length = 0
  · refine ⟨.overflow, ?_⟩
    simp only [expandKey, h0]
    simp [expand1, subU, bind, Except.bind]
  obtain ⟨la, ha, _⟩ := expand1_spec key.length (by omega) (128 - key.length) key.length (by omega)
    (Nat.le_refl _) (Vector.ofFn fun i => if h : i.val < key.length then key[i.val] else 0#8)
  by_cases hb : bits.toNat = 0
  · refine ⟨.index, ?_⟩
    simp only [expandKey, if_neg hl, ha, bind, Except.bind, hb]
    simp [subU, vidx]
  · refine ⟨.overflow, ?_⟩
    have : 1024 < bits.toNat := by omega
    simp only [expandKey, if_neg hl, ha, bind, Except.bind,
      subU_error (show 128 < (bits.toNat + 7) / 8 by omega)]

/-! ## Determinism: the expansion is determined by the effective bytes -/

theorem expansion_unique {key1 key2 : List U8} {bits : Nat} {L1 L2 L1' L2' : Nat → U8}
    (hb : 1 ≤ bits) (hb' : bits ≤ 1024)
    (h : Spec.Rc2.Expansion key1 bits L1 L2) (h' : Spec.Rc2.Expansion key2 bits L1' L2')
    (hmask : L1 (128 - Spec.Rc2.T8 bits) &&& Spec.Rc2.TM bits =
      L1' (128 - Spec.Rc2.T8 bits) &&& Spec.Rc2.TM bits)
    (hkeep : ∀ i, 128 - Spec.Rc2.T8 bits < i → i < 128 → L1 i = L1' i) :
    ∀ i < 128, L2 i = L2' i := by
  have hT8 : 1 ≤ Spec.Rc2.T8 bits ∧ Spec.Rc2.T8 bits ≤ 128 := by
    unfold Spec.Rc2.T8; omega
  have key : ∀ d i, i + d = 127 → L2 i = L2' i := by
    intro d
    induction d using Nat.strongRecOn with
    | _ d ih =>
      intro i hi
      rcases Nat.lt_trichotomy i (128 - Spec.Rc2.T8 bits) with hlt | heq | hgt
      · rw [h.loop2 i hlt, h'.loop2 i hlt, ih (d - 1) (by omega) (i + 1) (by omega),
          ih (d - Spec.Rc2.T8 bits) (by omega) (i + Spec.Rc2.T8 bits) (by omega)]
      · rw [heq, h.mask, h'.mask, hmask]
      · rw [h.keep i hgt (by omega), h'.keep i hgt (by omega), hkeep i hgt (by omega)]
  intro i hi
  exact key (127 - i) i (by omega)

theorem fromKey_congr {key1 key2 : List U8} {bits : U16}
    (hk1 : 1 ≤ key1.length ∧ key1.length ≤ 128) (hk2 : 1 ≤ key2.length ∧ key2.length ≤ 128)
    (hb : 1 ≤ bits.toNat ∧ bits.toNat ≤ 1024)
    {L1 L2 L1' L2' : Nat → U8}
    (h : Spec.Rc2.Expansion key1 bits.toNat L1 L2) (h' : Spec.Rc2.Expansion key2 bits.toNat L1' L2')
    (hmask : L1 (128 - Spec.Rc2.T8 bits.toNat) &&& Spec.Rc2.TM bits.toNat =
      L1' (128 - Spec.Rc2.T8 bits.toNat) &&& Spec.Rc2.TM bits.toNat)
    (hkeep : ∀ i, 128 - Spec.Rc2.T8 bits.toNat < i → i < 128 → L1 i = L1' i) :
    fromKey key1 bits = fromKey key2 bits := by
  have uniq1 : ∀ (key : List U8) (A B A' B' : Nat → U8), 1 ≤ key.length →
      Spec.Rc2.Expansion key bits.toNat A B → Spec.Rc2.Expansion key bits.toNat A' B' →
      ∀ i < 128, A i = A' i := by
    intro key A B A' B' hk ha hb i
    induction i using Nat.strongRecOn with
    | _ i ih =>
      intro hi
      by_cases hlt : i < key.length
      · rw [ha.init i hlt, hb.init i hlt]
      · rw [ha.loop1 i (by omega) hi, hb.loop1 i (by omega) hi, ih (i - 1) (by omega) (by omega),
          ih (i - key.length) (by omega) (by omega)]
  obtain ⟨k1, A1, A2, e1, x1, w1⟩ := expandKey_spec key1 hk1.1 hk1.2 bits hb.1 hb.2
  obtain ⟨k2, B1, B2, e2, x2, w2⟩ := expandKey_spec key2 hk2.1 hk2.2 bits hb.1 hb.2
  have hT8 : 1 ≤ Spec.Rc2.T8 bits.toNat ∧ Spec.Rc2.T8 bits.toNat ≤ 128 := by
    unfold Spec.Rc2.T8; omega
  have hA : ∀ i < 128, A1 i = L1 i := uniq1 key1 _ _ _ _ hk1.1 x1 h
  have hB : ∀ i < 128, B1 i = L1' i := uniq1 key2 _ _ _ _ hk2.1 x2 h'
  have hL2 := expansion_unique hb.1 hb.2 x1 x2
    (by rw [hA _ (by omega), hB _ (by omega), hmask])
    (fun i hi hi' => by rw [hA i hi', hB i hi', hkeep i hi hi'])
  have : k1 = k2 := by
    apply Vector.ext
    intro i hi
    rw [w1 i hi, w2 i hi, Spec.Rc2.keyWord, Spec.Rc2.keyWord, hL2 (2 * i) (by omega), hL2 (2 * i + 1) (by omega)]
  simp [fromKey, e1, e2, this, bind, Except.bind]

/-! ## Rounds -/

theorem foldRev_fold {α : Type} (n : Nat) (f g : (i : Nat) → i < n → α → α) (x : α)
    (h : ∀ i hi x, g i hi (f i hi x) = x) : Nat.foldRev n g (Nat.fold n f x) = x := by
  induction n generalizing x with
  | zero => simp
  | succ n ih =>
    rw [Nat.fold_succ, Nat.foldRev_succ, h]
    exact ih _ _ x (fun i hi x => h i (by omega) x)

theorem fold_foldRev {α : Type} (n : Nat) (f g : (i : Nat) → i < n → α → α) (x : α)
    (h : ∀ i hi x, f i hi (g i hi x) = x) : Nat.fold n f (Nat.foldRev n g x) = x := by
  induction n generalizing x with
  | zero => simp
  | succ n ih =>
    rw [Nat.foldRev_succ, Nat.fold_succ, ih _ _ _ (fun i hi x => h i (by omega) x), h]

theorem d4_set {d : Vector U16 4} {i : Nat} (hi : i < 4) (v : U16) {j : Nat} (hj : j % 4 ≠ i) :
    d4 (d.set i v) j = d4 d j := by
  unfold d4
  rw [Vector.getElem_set_ne _ _ (fun h => hj h.symm)]

theorem sub3 (x k a b : U16) (s : Nat) :
    ((x + k + a + b).rotateLeft s).rotateRight s - k - a - b = x := by
  rw [rotR_rotL]
  have : x + k + a + b - k - a - b = x := by
    grind
  exact this

theorem add3 (x k a b : U16) (s : Nat) :
    ((x.rotateRight s - k - a - b) + k + a + b).rotateLeft s = x := by
  have : ∀ y : U16, (y - k - a - b) + k + a + b = y := by
    intro y
    grind
  rw [this, rotL_rotR]

theorem rmix1_mix1 (key : Vector U16 64) (base : Nat) (hb : base + 4 ≤ 64) (i : Nat) (hi : i < 4)
    (d : Vector U16 4) : rmix1 key base hb i hi (mix1 key base hb i hi d) = d := by
  unfold rmix1 mix1
  rw [d4_set hi _ (show (i + 3) % 4 ≠ i by omega), d4_set hi _ (show (i + 2) % 4 ≠ i by omega),
    d4_set hi _ (show (i + 1) % 4 ≠ i by omega), Vector.getElem_set_self, sub3, Vector.set_set,
    Vector.set_getElem_self]

theorem mix1_rmix1 (key : Vector U16 64) (base : Nat) (hb : base + 4 ≤ 64) (i : Nat) (hi : i < 4)
    (d : Vector U16 4) : mix1 key base hb i hi (rmix1 key base hb i hi d) = d := by
  unfold rmix1 mix1
  rw [d4_set hi _ (show (i + 3) % 4 ≠ i by omega), d4_set hi _ (show (i + 2) % 4 ≠ i by omega),
    d4_set hi _ (show (i + 1) % 4 ≠ i by omega), Vector.getElem_set_self, add3, Vector.set_set,
    Vector.set_getElem_self]

theorem rmash1_mash1 (key : Vector U16 64) (i : Nat) (hi : i < 4)
    (d : Vector U16 4) : rmash1 key i hi (mash1 key i hi d) = d := by
  unfold rmash1 mash1
  rw [d4_set hi _ (show (i + 3) % 4 ≠ i by omega), Vector.getElem_set_self, BitVec.add_sub_cancel,
    Vector.set_set, Vector.set_getElem_self]

theorem mash1_rmash1 (key : Vector U16 64) (i : Nat) (hi : i < 4)
    (d : Vector U16 4) : mash1 key i hi (rmash1 key i hi d) = d := by
  unfold rmash1 mash1
  rw [d4_set hi _ (show (i + 3) % 4 ≠ i by omega), Vector.getElem_set_self, BitVec.sub_add_cancel,
    Vector.set_set, Vector.set_getElem_self]

theorem rmix_mix (key : Vector U16 64) (base : Nat) (hb : base + 4 ≤ 64) (d : Vector U16 4) :
    rmix key base hb (mix key base hb d) = d :=
  foldRev_fold 4 _ _ d (fun i hi x => rmix1_mix1 key base hb i hi x)
theorem mix_rmix (key : Vector U16 64) (base : Nat) (hb : base + 4 ≤ 64) (d : Vector U16 4) :
    mix key base hb (rmix key base hb d) = d :=
  fold_foldRev 4 _ _ d (fun i hi x => mix1_rmix1 key base hb i hi x)
theorem rmash_mash (key : Vector U16 64) (d : Vector U16 4) : rmash key (mash key d) = d :=
  foldRev_fold 4 _ _ d (fun i hi x => rmash1_mash1 key i hi x)
theorem mash_rmash (key : Vector U16 64) (d : Vector U16 4) : mash key (rmash key d) = d :=
  fold_foldRev 4 _ _ d (fun i hi x => mash1_rmash1 key i hi x)

theorem decryptBlock_encryptBlock (k : RC2) (d : Vector U16 4) : decryptBlock k (encryptBlock k d) = d := by
  apply foldRev_fold
  intro i hi x
  by_cases h : i = 4 ∨ i = 10
  · simp only [if_pos h, rmash_mash, rmix_mix]
  · simp only [if_neg h, rmix_mix]

theorem encryptBlock_decryptBlock (k : RC2) (d : Vector U16 4) : encryptBlock k (decryptBlock k d) = d := by
  apply fold_foldRev
  intro i hi x
  by_cases h : i = 4 ∨ i = 10
  · simp only [if_pos h, mix_rmix, mash_rmash]
  · simp only [if_neg h, mix_rmix]

theorem split_join (d : Vector U16 4) : split (join d) = d := by
  apply Vector.ext
  intro i hi
  simp only [split, join, Vector.getElem_ofFn]
  have h1 : 2 * i / 2 = i := by omega
  have h2 : (2 * i + 1) / 2 = i := by omega
  have h3 : 2 * i % 2 = 0 := by omega
  have h4 : (2 * i + 1) % 2 = 1 := by omega
  simp only [h1, h2, h3, h4]
  exact leU16_extract _

theorem join_split (b : Vector U8 8) : join (split b) = b := by
  apply Vector.ext
  intro i hi
  simp only [split, join, Vector.getElem_ofFn]
  obtain ⟨h1, h2⟩ := extract_leU16 b[2 * (i / 2)] b[2 * (i / 2) + 1]
  rcases Nat.mod_two_eq_zero_or_one i with h | h
  · simp only [h]
    refine h1.trans ?_
    congr 1; omega
  · simp only [h]
    refine h2.trans ?_
    congr 1; omega

theorem decrypt_encrypt (k : RC2) (b : Vector U8 8) : decrypt k (encrypt k b) = b := by
  rw [decrypt, encrypt, split_join, decryptBlock_encryptBlock, join_split]

theorem encrypt_decrypt (k : RC2) (b : Vector U8 8) : encrypt k (decrypt k b) = b := by
  rw [decrypt, encrypt, split_join, encryptBlock_decryptBlock, join_split]

/-! ## Refinement of the rounds -/

/-- The four words as registers. -/
def regs (d : Vector U16 4) : Spec.Rc2.Regs := ⟨d[0], d[1], d[2], d[3]⟩

/-- The expanded key as a table. -/
def ktab (key : Vector U16 64) (i : Nat) : U16 := if h : i < 64 then key[i] else 0

theorem ktab_lt (key : Vector U16 64) {i : Nat} (h : i < 64) : ktab key i = key[i] := by simp [ktab, h]

theorem keyAt_eq (key : Vector U16 64) (w : U16) : keyAt key w = ktab key (w.toNat % 64) := by
  have h : (w &&& 63#16).toNat = w.toNat % 64 := by
    rw [BitVec.toNat_and]
    exact Nat.and_two_pow_sub_one_eq_mod w.toNat 6
  rw [ktab_lt _ (Nat.mod_lt _ (by decide)), keyAt]
  simp only [h]

theorem vec4 (d : Vector U16 4) : d = #v[d[0], d[1], d[2], d[3]] := by
  apply Vector.ext
  intro i hi
  match i, hi with
  | 0, _ => rfl
  | 1, _ => rfl
  | 2, _ => rfl
  | 3, _ => rfl

theorem mix_regs (key : Vector U16 64) (base : Nat) (hb : base + 4 ≤ 64) (d : Vector U16 4) :
    regs (mix key base hb d) = Spec.Rc2.mixRound (ktab key) base (regs d) := by
  rw [vec4 d]
  generalize d[0] = a; generalize d[1] = b; generalize d[2] = c; generalize d[3] = e
  simp only [Spec.Rc2.mixRound, Spec.Rc2.mixUp, ktab_lt key (show base < 64 by omega),
    ktab_lt key (show base + 1 < 64 by omega), ktab_lt key (show base + 2 < 64 by omega),
    ktab_lt key (show base + 3 < 64 by omega)]
  rfl

theorem mash_regs (key : Vector U16 64) (d : Vector U16 4) :
    regs (mash key d) = Spec.Rc2.mashRound (ktab key) (regs d) := by
  rw [vec4 d]
  generalize d[0] = a; generalize d[1] = b; generalize d[2] = c; generalize d[3] = e
  simp only [Spec.Rc2.mashRound, ← keyAt_eq]
  rfl

theorem encryptBlock_regs (k : RC2) (d : Vector U16 4) :
    regs (encryptBlock k d) = Spec.Rc2.encRegs (ktab k.key) (regs d) := by
  simp [encryptBlock, Nat.fold_succ, Nat.fold_zero, Spec.Rc2.encRegs, Spec.Rc2.mixRounds, mix_regs, mash_regs]

theorem split_regs (b : Vector U8 8) : regs (split b) = Spec.Rc2.toRegs b := by
  have h : ∀ a b : U8, leU16 a b = BitVec.ofNat 16 (a.toNat + 256 * b.toNat) := by
    intro a b
    apply BitVec.eq_of_toNat_eq
    rw [leU16_toNat, BitVec.toNat_ofNat, Nat.mod_eq_of_lt]
    have := a.isLt; have := b.isLt
    omega
  simp [regs, split, Spec.Rc2.toRegs, h]

theorem join_toList (d : Vector U16 4) : (join d).toList = Spec.Rc2.ofRegs (regs d) := by
  have h : ∀ (w : U16) (i : Nat), w.extractLsb' (8 * i) 8 = BitVec.ofNat 8 (w.toNat / 2 ^ (8 * i)) := by
    intro w i
    apply BitVec.eq_of_toNat_eq
    simp [BitVec.extractLsb'_toNat, Nat.shiftRight_eq_div_pow]
  have h2 : ∀ w : U16, natToLE 2 w.toNat = [w.extractLsb' (8 * 0) 8, w.extractLsb' (8 * 1) 8] := by
    intro w
    rw [h, h]
    simp [natToLE]
  simp only [Spec.Rc2.ofRegs, h2, regs]
  rfl

theorem encrypt_spec (k : RC2) (b : Vector U8 8) :
    (encrypt k b).toList = Spec.Rc2.ofRegs (Spec.Rc2.encRegs (ktab k.key) (Spec.Rc2.toRegs b)) := by
  rw [encrypt, join_toList, encryptBlock_regs, split_regs]

end Verif.Model.Rc2
