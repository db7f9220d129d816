import Verif.Props.Rc2
import Verif.Proof.ShaPad
import Mathlib.Data.Set.Card

/-! # Property C115: the expanded RC2 key keeps exactly the effective key bits -/

namespace Verif.Props
open Verif Model Spec

/-- PITABLE is a permutation. -/
theorem pi_inj (a b : U8) (h : Spec.Rc2.pi a = Spec.Rc2.pi b) : a = b := by
  have key : ∀ m n : Fin 256, Spec.Rc2.pi (BitVec.ofNat 8 m.val) = Spec.Rc2.pi (BitVec.ofNat 8 n.val) → m = n := by
    decide +kernel
  have := key ⟨a.toNat, a.isLt⟩ ⟨b.toNat, b.isLt⟩ (by simpa using h)
  exact BitVec.eq_of_toNat_eq (Fin.mk.inj this)

theorem keyWord_inj {A B : Nat → U8} {i : Nat} (h : Spec.Rc2.keyWord A i = Spec.Rc2.keyWord B i) :
    A (2 * i) = B (2 * i) ∧ A (2 * i + 1) = B (2 * i + 1) := by
  have h1 := congrArg BitVec.toNat h
  simp only [Spec.Rc2.keyWord, BitVec.toNat_ofNat] at h1
  have a0 := (A (2 * i)).isLt
  have a1 := (A (2 * i + 1)).isLt
  have b0 := (B (2 * i)).isLt
  have b1 := (B (2 * i + 1)).isLt
  constructor <;> apply BitVec.eq_of_toNat_eq <;> omega

/-- The key buffer after the first loop is determined by the key. -/
theorem expansion_first {key : List U8} {bits : Nat} {A B A' B' : Nat → U8} (hk : 1 ≤ key.length)
    (ha : Spec.Rc2.Expansion key bits A B) (hb : Spec.Rc2.Expansion key bits A' B') : ∀ i < 128, A i = A' i := by
  intro i
  induction i using Nat.strongRecOn with
  | _ i ih =>
    intro hi
    by_cases hlt : i < key.length
    · rw [ha.init i hlt, hb.init i hlt]
    · rw [ha.loop1 i (by omega) hi, hb.loop1 i (by omega) hi, ih (i - 1) (by omega) (by omega),
        ih (i - key.length) (by omega) (by omega)]

/-- C115: two keys, of any lengths, give the same RC2 object exactly when their effective bits are the same: after the first
loop of the key expansion, the last `T8 = ⌈bits / 8⌉` bytes of the buffer are the same, the first of them under the mask. -/
theorem C115_same_iff (key1 key2 : List U8) (bits : U16)
    (hk1 : 1 ≤ key1.length ∧ key1.length ≤ 128) (hk2 : 1 ≤ key2.length ∧ key2.length ≤ 128)
    (hb : 1 ≤ bits.toNat ∧ bits.toNat ≤ 1024) (L1 L2 L1' L2' : Nat → U8)
    (h : Spec.Rc2.Expansion key1 bits.toNat L1 L2) (h' : Spec.Rc2.Expansion key2 bits.toNat L1' L2') :
    Rc2.fromKey key1 bits = Rc2.fromKey key2 bits ↔
      L1 (128 - Spec.Rc2.T8 bits.toNat) &&& Spec.Rc2.TM bits.toNat =
        L1' (128 - Spec.Rc2.T8 bits.toNat) &&& Spec.Rc2.TM bits.toNat ∧
      ∀ i, 128 - Spec.Rc2.T8 bits.toNat < i → i < 128 → L1 i = L1' i := by
  refine ⟨fun heq => ?_, fun ⟨h1, h2⟩ => C19_rc2_effective_bytes key1 key2 bits hk1 hk2 hb _ _ _ _ h h' h1 h2⟩
  have hT8 : 1 ≤ Spec.Rc2.T8 bits.toNat ∧ Spec.Rc2.T8 bits.toNat ≤ 128 := by unfold Spec.Rc2.T8; omega
  obtain ⟨k1, A1, A2, e1, x1, w1⟩ := Rc2.expandKey_spec key1 hk1.1 hk1.2 bits hb.1 hb.2
  obtain ⟨k2, B1, B2, e2, x2, w2⟩ := Rc2.expandKey_spec key2 hk2.1 hk2.2 bits hb.1 hb.2
  have hA := expansion_first hk1.1 x1 h
  have hB := expansion_first hk2.1 x2 h'
  have hk : k1 = k2 := by
    simp only [Rc2.fromKey, e1, e2, bind, Except.bind, Except.ok.injEq, Rc2.RC2.mk.injEq] at heq
    exact heq
  have hw : ∀ i < 128, A2 i = B2 i := by
    intro i hi
    have hi' : i / 2 < 64 := by omega
    obtain ⟨p, q⟩ := keyWord_inj ((w1 (i / 2) hi').symm.trans ((congrArg (fun k => k[i / 2]) hk).trans (w2 (i / 2) hi')))
    rcases Nat.mod_two_eq_zero_or_one i with h0 | h0
    · rwa [show 2 * (i / 2) = i by omega] at p
    · rwa [show 2 * (i / 2) + 1 = i by omega] at q
  refine ⟨?_, fun i hi hi' => ?_⟩
  · have := hw (128 - Spec.Rc2.T8 bits.toNat) (by omega)
    rw [x1.mask, x2.mask] at this
    rw [← hA _ (by omega), ← hB _ (by omega)]
    exact pi_inj _ _ this
  · have := hw i hi'
    rwa [x1.keep i hi hi', x2.keep i hi hi', hA i hi', hB i hi'] at this

/-- C115: no key bit is lost: keys of the same length, from two bytes on, with at least as many effective bits as the key has
bits, give the same RC2 object only if they are the same key. -/
theorem C115_no_bit_lost (key1 key2 : List U8) (bits : U16) (hlen : key1.length = key2.length)
    (hk : 2 ≤ key1.length) (hbits : 8 * key1.length ≤ bits.toNat) (hb : bits.toNat ≤ 1024) :
    Rc2.fromKey key1 bits = Rc2.fromKey key2 bits ↔ key1 = key2 := by
  refine ⟨fun heq => ?_, fun h => by rw [h]⟩
  obtain ⟨k1, A1, A2, e1, x1, w1⟩ := Rc2.expandKey_spec key1 (by omega) (by omega) bits (by omega) hb
  obtain ⟨k2, B1, B2, e2, x2, w2⟩ := Rc2.expandKey_spec key2 (by omega) (by omega) bits (by omega) hb
  obtain ⟨hm, hr⟩ := (C115_same_iff key1 key2 bits ⟨by omega, by omega⟩ ⟨by omega, by omega⟩ ⟨by omega, hb⟩ _ _ _ _ x1 x2).1 heq
  have hT8 : 8 * Spec.Rc2.T8 bits.toNat < bits.toNat + 8 ∧ bits.toNat ≤ 8 * Spec.Rc2.T8 bits.toNat := by
    unfold Spec.Rc2.T8; omega
  -- the last bytes are the same, with nothing masked
  have last : ∀ i, 128 - key1.length ≤ i → i < 128 → A1 i = B1 i := by
    intro i hi hi'
    by_cases hlt : 128 - Spec.Rc2.T8 bits.toNat < i
    · exact hr i hlt hi'
    · have hT : i = 128 - Spec.Rc2.T8 bits.toNat ∧ 8 * Spec.Rc2.T8 bits.toNat = bits.toNat := by omega
      have hTM : Spec.Rc2.TM bits.toNat = BitVec.allOnes 8 := by
        rw [Spec.Rc2.TM, show 8 + bits.toNat - 8 * Spec.Rc2.T8 bits.toNat = 8 by omega]
        decide
      rw [hTM, BitVec.and_allOnes, BitVec.and_allOnes] at hm
      rw [hT.1]
      exact hm
  -- and the first loop can be run backwards
  have all : ∀ j, j < 128 → A1 (127 - j) = B1 (127 - j) := by
    intro j
    induction j using Nat.strongRecOn with
    | _ j ih =>
      intro hj
      by_cases hlt : 128 - key1.length ≤ 127 - j
      · exact last _ hlt (by omega)
      · have p1 := x1.loop1 (127 - j + key1.length) (by omega) (by omega)
        have p2 := x2.loop1 (127 - j + key1.length) (by omega) (by omega)
        have q1 := ih (j - key1.length) (by omega) (by omega)
        have q2 := ih (j - key1.length + 1) (by omega) (by omega)
        rw [show 127 - (j - key1.length) = 127 - j + key1.length by omega] at q1
        rw [show 127 - (j - key1.length + 1) = 127 - j + key1.length - 1 by omega] at q2
        rw [p1, p2] at q1
        have := pi_inj _ _ q1
        rw [q2, hlen, Nat.add_sub_cancel] at this
        exact (BitVec.add_right_inj _).1 this
  apply List.ext_getElem hlen
  intro i h1 h2
  rw [← x1.init i h1, ← x2.init i h2]
  have := all (127 - i) (by omega)
  rwa [show 127 - (127 - i) = i by omega] at this

/-- C115: with 1024 effective bits no bit of a key of one byte is lost. -/
theorem C115_one_byte_1024 (a b : U8) (bits : U16) (hb : bits.toNat = 1024) :
    Rc2.fromKey [a] bits = Rc2.fromKey [b] bits ↔ a = b := by
  refine ⟨fun heq => ?_, fun h => by rw [h]⟩
  obtain ⟨k1, A1, A2, e1, x1, w1⟩ := Rc2.expandKey_spec [a] (by simp) (by simp) bits (by omega) (by omega)
  obtain ⟨k2, B1, B2, e2, x2, w2⟩ := Rc2.expandKey_spec [b] (by simp) (by simp) bits (by omega) (by omega)
  obtain ⟨hm, -⟩ := (C115_same_iff [a] [b] bits ⟨by simp, by simp⟩ ⟨by simp, by simp⟩ ⟨by omega, by omega⟩ _ _ _ _ x1 x2).1 heq
  have hT8 : 128 - Spec.Rc2.T8 bits.toNat = 0 := by unfold Spec.Rc2.T8; omega
  have hTM : Spec.Rc2.TM bits.toNat = BitVec.allOnes 8 := by rw [hb]; decide
  rw [hTM, BitVec.and_allOnes, BitVec.and_allOnes, hT8, x1.init 0 (by simp), x2.init 0 (by simp)] at hm
  exact hm

/-- C115: with keys of one byte one bit is lost unless all 128 bytes are effective: `a` and `a + 128` give the same object. -/
theorem C115_one_byte (a : U8) (bits : U16) (h1 : 1 ≤ bits.toNat) (hb : bits.toNat ≤ 1016) :
    Rc2.fromKey [a] bits = Rc2.fromKey [a + 128#8] bits := by
  obtain ⟨k1, A1, A2, e1, x1, w1⟩ := Rc2.expandKey_spec [a] (by simp) (by simp) bits h1 (by omega)
  obtain ⟨k2, B1, B2, e2, x2, w2⟩ := Rc2.expandKey_spec [a + 128#8] (by simp) (by simp) bits h1 (by omega)
  have hT8 : Spec.Rc2.T8 bits.toNat ≤ 127 := by unfold Spec.Rc2.T8; omega
  have same : ∀ i, i + 1 < 128 → A1 (i + 1) = B1 (i + 1) := by
    intro i
    induction i with
    | zero =>
      intro _
      rw [x1.loop1 1 (by simp) (by omega), x2.loop1 1 (by simp) (by omega)]
      simp only [List.length_cons, List.length_nil, Nat.zero_add, Nat.sub_self]
      rw [x1.init 0 (by simp), x2.init 0 (by simp)]
      simp only [List.getElem_cons_zero]
      have e : a + a = a + 128#8 + (a + 128#8) := by
        apply BitVec.eq_of_toNat_eq
        simp only [BitVec.toNat_add, BitVec.toNat_ofNat]
        omega
      rw [e]
    | succ i ih =>
      intro hi
      rw [x1.loop1 (i + 1 + 1) (by simp) hi, x2.loop1 (i + 1 + 1) (by simp) hi]
      simp only [List.length_cons, List.length_nil, Nat.zero_add, Nat.add_sub_cancel]
      rw [ih (by omega)]
  have same' : ∀ i, 1 ≤ i → i < 128 → A1 i = B1 i := by
    intro i h h'
    have := same (i - 1) (by omega)
    rwa [Nat.sub_add_cancel h] at this
  exact (C115_same_iff _ _ bits (by simp) (by simp) ⟨h1, by omega⟩ _ _ _ _ x1 x2).2
    ⟨by rw [same' _ (by omega) (by unfold Spec.Rc2.T8; omega)], fun i hi hi' => same' i (by omega) hi'⟩

theorem effective_inj {bits : Nat} (hb : 1 ≤ bits ∧ bits ≤ 1024) {L L' : Nat → U8} (h : effective bits L = effective bits L') :
    L (128 - Spec.Rc2.T8 bits) &&& Spec.Rc2.TM bits = L' (128 - Spec.Rc2.T8 bits) &&& Spec.Rc2.TM bits ∧
      ∀ i, 128 - Spec.Rc2.T8 bits < i → i < 128 → L i = L' i := by
  have l1 := leVal_lt ((List.range (Spec.Rc2.T8 bits - 1)).map fun i => L (127 - i))
  have l2 := leVal_lt ((List.range (Spec.Rc2.T8 bits - 1)).map fun i => L' (127 - i))
  simp only [List.length_map, List.length_range] at l1 l2
  have hpos : 0 < 256 ^ (Spec.Rc2.T8 bits - 1) := Nat.pow_pos (by decide)
  unfold effective at h
  have hmod := congrArg (· % 256 ^ (Spec.Rc2.T8 bits - 1)) h
  have hdiv := congrArg (· / 256 ^ (Spec.Rc2.T8 bits - 1)) h
  simp only [Nat.add_mul_mod_self_left, Nat.mod_eq_of_lt l1, Nat.mod_eq_of_lt l2] at hmod
  simp only [Nat.add_mul_div_left _ _ hpos, Nat.div_eq_of_lt l1, Nat.div_eq_of_lt l2, Nat.zero_add] at hdiv
  have hlist := leVal_inj (by simp) hmod
  have hT8 : Spec.Rc2.T8 bits ≤ 128 := by unfold Spec.Rc2.T8; omega
  refine ⟨BitVec.eq_of_toNat_eq hdiv, fun i hi hi' => ?_⟩
  have h1 := List.map_inj_left.1 hlist (127 - i) (by simp; omega)
  rwa [show 127 - (127 - i) = i by omega] at h1

theorem effective_congr {bits : Nat} (hb : 1 ≤ bits ∧ bits ≤ 1024) {L L' : Nat → U8}
    (h : L (128 - Spec.Rc2.T8 bits) &&& Spec.Rc2.TM bits = L' (128 - Spec.Rc2.T8 bits) &&& Spec.Rc2.TM bits)
    (h' : ∀ i, 128 - Spec.Rc2.T8 bits < i → i < 128 → L i = L' i) : effective bits L = effective bits L' := by
  have hT8 : 1 ≤ Spec.Rc2.T8 bits ∧ Spec.Rc2.T8 bits ≤ 128 := by unfold Spec.Rc2.T8; omega
  unfold effective
  rw [h]
  congr 2
  apply List.map_congr_left
  intro i hi
  rw [List.mem_range] at hi
  exact h' _ (by omega) (by omega)

/-- Every number below `2 ^ bits` is the effective part of some 128 bytes. -/
theorem effective_surj (bits : Nat) (hb : 1 ≤ bits ∧ bits ≤ 1024) (n : Nat) (hn : n < 2 ^ bits) :
    ∃ L, effective bits L = n := by
  have hT8 : 1 ≤ Spec.Rc2.T8 bits ∧ Spec.Rc2.T8 bits ≤ 128 := by unfold Spec.Rc2.T8; omega
  have hw : 8 + bits - 8 * Spec.Rc2.T8 bits ≤ 8 := by unfold Spec.Rc2.T8; omega
  have h3 : 2 ^ bits = 256 ^ (Spec.Rc2.T8 bits - 1) * 2 ^ (8 + bits - 8 * Spec.Rc2.T8 bits) := by
    rw [show (256 : Nat) = 2 ^ 8 by decide, ← Nat.pow_mul, ← Nat.pow_add]
    congr 1
    unfold Spec.Rc2.T8
    omega
  have hq : n / 256 ^ (Spec.Rc2.T8 bits - 1) < 2 ^ (8 + bits - 8 * Spec.Rc2.T8 bits) := by
    apply Nat.div_lt_of_lt_mul
    rwa [← h3]
  generalize hwd : 8 + bits - 8 * Spec.Rc2.T8 bits = w at *
  have hTM : (Spec.Rc2.TM bits).toNat = 2 ^ w - 1 := by
    rw [Spec.Rc2.TM, hwd, BitVec.toNat_ofNat]
    have : w = 0 ∨ w = 1 ∨ w = 2 ∨ w = 3 ∨ w = 4 ∨ w = 5 ∨ w = 6 ∨ w = 7 ∨ w = 8 := by omega
    rcases this with h | h | h | h | h | h | h | h | h <;> subst h <;> rfl
  have h256 : (2 : Nat) ^ w ≤ 256 := (Nat.pow_le_pow_right (by decide) hw : 2 ^ w ≤ 2 ^ 8)
  refine ⟨fun i => if i = 128 - Spec.Rc2.T8 bits then BitVec.ofNat 8 (n / 256 ^ (Spec.Rc2.T8 bits - 1))
    else (natToLE (Spec.Rc2.T8 bits - 1) n).getD (127 - i) 0#8, ?_⟩
  unfold effective
  have hlist : ((List.range (Spec.Rc2.T8 bits - 1)).map fun i =>
      (fun i => if i = 128 - Spec.Rc2.T8 bits then BitVec.ofNat 8 (n / 256 ^ (Spec.Rc2.T8 bits - 1))
        else (natToLE (Spec.Rc2.T8 bits - 1) n).getD (127 - i) 0#8) (127 - i)) = natToLE (Spec.Rc2.T8 bits - 1) n := by
    apply List.ext_getElem
    · simp [length_natToLE]
    · intro i h1 h2
      simp only [List.length_map, List.length_range] at h1
      simp only [List.getElem_map, List.getElem_range]
      rw [if_neg (by omega), show 127 - (127 - i) = i by omega, List.getD_eq_getElem?_getD, List.getElem?_eq_getElem h2,
        Option.getD_some]
  rw [hlist, leVal_natToLE]
  beta_reduce
  rw [if_pos rfl, BitVec.toNat_and, hTM, Nat.and_two_pow_sub_one_eq_mod, BitVec.toNat_ofNat,
    Nat.mod_eq_of_lt (b := 2 ^ 8) (by omega), Nat.mod_eq_of_lt hq, Nat.mod_add_div]

/-- C115: with `bits` effective bits there are exactly `2 ^ bits` RC2 objects, over all keys of 1 to 128 bytes. -/
theorem C115_exactly_2_pow_bits (bits : U16) (hb : 1 ≤ bits.toNat ∧ bits.toNat ≤ 1024) :
    {k | ∃ key, 1 ≤ key.length ∧ key.length ≤ 128 ∧ Rc2.fromKey key bits = .ok k}.ncard = 2 ^ bits.toNat := by
  classical
  -- the cipher for each effective number, from a key of 128 bytes
  have ex : ∀ n : Nat, n < 2 ^ bits.toNat → ∃ k key L1 L2, key.length = 128 ∧ Rc2.fromKey key bits = .ok k ∧
      Spec.Rc2.Expansion key bits.toNat L1 L2 ∧ effective bits.toNat L1 = n := by
    intro n hn
    obtain ⟨L, hL⟩ := effective_surj bits.toNat hb n hn
    have hlen : ((List.range 128).map L).length = 128 := by simp
    obtain ⟨k, L1, L2, e, x, w⟩ := Rc2.expandKey_spec ((List.range 128).map L) (by omega) (by omega) bits hb.1 hb.2
    refine ⟨⟨k⟩, _, L1, L2, hlen, by simp [Rc2.fromKey, e, bind, Except.bind], x, ?_⟩
    rw [← hL]
    have hT8 : 1 ≤ Spec.Rc2.T8 bits.toNat ∧ Spec.Rc2.T8 bits.toNat ≤ 128 := by unfold Spec.Rc2.T8; omega
    have : ∀ i < 128, L1 i = L i := by
      intro i hi
      rw [x.init i (by omega)]
      simp
    exact effective_congr hb (by rw [this _ (by omega)]) (fun i _ hi => this i hi)
  haveI : Nonempty Rc2.RC2 := ⟨⟨Vector.replicate 64 0⟩⟩
  choose! f key L1 L2 hlen hf hx he using ex
  have himg : {k | ∃ key, 1 ≤ key.length ∧ key.length ≤ 128 ∧ Rc2.fromKey key bits = .ok k} =
      f '' (Finset.range (2 ^ bits.toNat) : Set Nat) := by
    ext k
    simp only [Set.mem_setOf_eq, Set.mem_image, Finset.coe_range, Set.mem_Iio]
    constructor
    · rintro ⟨key', h1, h2, h3⟩
      obtain ⟨k', A1, A2, e, x, w⟩ := Rc2.expandKey_spec key' h1 h2 bits hb.1 hb.2
      have hn := effective_lt bits.toNat hb.1 hb.2 A1
      refine ⟨effective bits.toNat A1, hn, ?_⟩
      obtain ⟨p, q⟩ := effective_inj hb (he _ hn)
      have := C19_rc2_effective_bytes (key _) key' bits (by rw [hlen _ hn]; omega) ⟨h1, h2⟩ hb _ _ _ _ (hx _ hn) x p q
      rw [hf _ hn, h3] at this
      exact Except.ok.inj this
    · rintro ⟨n, hn, rfl⟩
      exact ⟨key n, by rw [hlen n hn]; omega, by rw [hlen n hn], hf n hn⟩
  rw [himg, Set.ncard_image_of_injOn, Set.ncard_coe_finset, Finset.card_range]
  intro m hm n hn hmn
  simp only [Finset.coe_range, Set.mem_Iio] at hm hn
  have heq : Rc2.fromKey (key m) bits = Rc2.fromKey (key n) bits := by
    rw [hf m hm, hf n hn]
    exact congrArg Except.ok hmn
  obtain ⟨p, q⟩ := (C115_same_iff (key m) (key n) bits (by rw [hlen m hm]; omega) (by rw [hlen n hn]; omega) hb
    _ _ _ _ (hx m hm) (hx n hn)).1 heq
  rw [← he m hm, ← he n hn]
  exact effective_congr hb p q

/-- Not vacuous: with 64 effective bits, 8-byte keys that differ in one bit give different objects, 1-byte keys need not. -/
example : Rc2.fromKey [0#8, 0#8, 0#8, 0#8, 0#8, 0#8, 0#8, 0#8] 64 ≠ Rc2.fromKey [0#8, 0#8, 0#8, 0#8, 0#8, 0#8, 0#8, 1#8] 64 := by
  rw [Ne, C115_no_bit_lost [0#8, 0#8, 0#8, 0#8, 0#8, 0#8, 0#8, 0#8] [0#8, 0#8, 0#8, 0#8, 0#8, 0#8, 0#8, 1#8] 64
    (by simp) (by simp) (by simp) (by simp)]
  simp
example : Rc2.fromKey [5#8] 1024 ≠ Rc2.fromKey [133#8] 1024 := fun h =>
  absurd ((C115_one_byte_1024 5#8 133#8 1024 (by simp)).1 h) (by decide)
example : Rc2.fromKey [5#8] 64 = Rc2.fromKey [133#8] 64 := C115_one_byte 5#8 64 (by simp) (by simp)
example : {k | ∃ key, 1 ≤ key.length ∧ key.length ≤ 128 ∧ Rc2.fromKey key 40 = .ok k}.ncard = 2 ^ 40 :=
  C115_exactly_2_pow_bits 40 ⟨by decide, by decide⟩

/-- C115 and C19 applied: the expansions of those two keys agree in what is kept, and that makes the keys equal. -/
example : ∃ L1 L2 L1' L2', Spec.Rc2.Expansion [5#8] 64 L1 L2 ∧ Spec.Rc2.Expansion [133#8] 64 L1' L2' ∧
    (∀ i, 120 < i → i < 128 → L1 i = L1' i) ∧ Rc2.fromKey [5#8] 64 = Rc2.fromKey [133#8] 64 := by
  obtain ⟨_, L1, L2, _, _, h, -⟩ := C19_rc2_spec [5#8] 64 (by decide) (by decide) (by decide) (by decide)
  obtain ⟨_, L1', L2', _, _, h', -⟩ := C19_rc2_spec [133#8] 64 (by decide) (by decide) (by decide) (by decide)
  obtain ⟨h1, h2⟩ := (C115_same_iff [5#8] [133#8] 64 (by decide) (by decide) (by decide) L1 L2 L1' L2' h h').1
    (C115_one_byte 5#8 64 (by simp) (by simp))
  exact ⟨L1, L2, L1', L2', h, h', h2, C19_rc2_effective_bytes [5#8] [133#8] 64 (by decide) (by decide) (by decide) L1 L2 L1' L2' h h'
    h1 h2⟩

end Verif.Props
