import Verif.Model.Rc2Trace
import Verif.Props.Rc2

/-! # C135: what the table lookups of the RC2 key expansion reveal -/

namespace Verif.Props
open Verif Verif.Model
open _root_.Verif.Model.Rc2Trace (expand1T expand2T expandKeyT)
open _root_.Verif.Spec.Rc2 (Expansion T8 TM keyWord)

theorem expand1T_fst (t n i : Nat) (l : Vector U8 128) : (expand1T t n i l).map Prod.fst = Rc2.expand1 t n i l := by
  induction n generalizing i l with
  | zero => rfl
  | succ n ih =>
    simp only [expand1T, Rc2.expand1, bind, Except.bind]
    cases subU i 1 with
    | error e => rfl
    | ok i1 =>
      simp only
      cases vidx l i1 with
      | error e => rfl
      | ok a =>
        simp only
        cases subU i t with
        | error e => rfl
        | ok i2 =>
          simp only
          cases vidx l i2 with
          | error e => rfl
          | ok b =>
            simp only
            cases vset l i (Rc2.pi (a + b)) with
            | error e => rfl
            | ok l' =>
              simp only
              rw [← ih]
              cases expand1T t n (i + 1) l' with
              | error e => rfl
              | ok r => rfl

theorem expand2T_fst (t8 n : Nat) (l : Vector U8 128) : (expand2T t8 n l).map Prod.fst = Rc2.expand2 t8 n l := by
  induction n generalizing l with
  | zero => rfl
  | succ n ih =>
    simp only [expand2T, Rc2.expand2, bind, Except.bind]
    cases vidx l (n + 1) with
    | error e => rfl
    | ok a =>
      simp only
      cases vidx l (n + t8) with
      | error e => rfl
      | ok b =>
        simp only
        cases vset l n (Rc2.pi (a ^^^ b)) with
        | error e => rfl
        | ok l' =>
          simp only
          rw [← ih]
          cases expand2T t8 n l' with
          | error e => rfl
          | ok r => rfl

/-- C135: the record changes nothing: without it the result is that of the key expansion, panics included. -/
theorem C135_same (key : List U8) (bits : U16) :
    ((expandKeyT key bits).map fun r => (⟨r.1⟩ : Rc2.RC2)) = Rc2.fromKey key bits := by
  unfold Rc2.fromKey expandKeyT Rc2.expandKey
  by_cases hl : 128 < key.length
  · rw [if_pos hl, if_pos hl]; rfl
  rw [if_neg hl, if_neg hl]
  simp only [bind, Except.bind]
  rw [← expand1T_fst]
  cases expand1T key.length (128 - key.length) key.length
      (Vector.ofFn fun i => if h : i.val < key.length then key[i.val] else 0#8) with
  | error e => rfl
  | ok r1 =>
    simp only [Except.map]
    cases subU 128 ((bits.toNat + 7) / 8) with
    | error e => rfl
    | ok k =>
      simp only
      cases vidx r1.1 k with
      | error e => rfl
      | ok a =>
        simp only
        cases vset r1.1 k (Rc2.pi (a &&& 0xff#8 >>> ((0#16 - bits) &&& 7#16).toNat)) with
        | error e => rfl
        | ok l =>
          simp only
          rw [← expand2T_fst]
          cases expand2T ((bits.toNat + 7) / 8) k l with
          | error e => rfl
          | ok r => rfl

theorem expand1T_places (t : Nat) (ht : 1 ≤ t) (n i : Nat) (hi : i + n = 128) (hti : t ≤ i) (l l' : Vector U8 128)
    (h : Rc2.expand1 t n i l = .ok l') : expand1T t n i l =
      .ok (l', (List.range' i n).map fun k => Rc2.tab l' (k - 1) + Rc2.tab l' (k - t)) := by
  induction n generalizing i l with
  | zero => cases h; rfl
  | succ n ih =>
    obtain ⟨l'', h1, h2, h3⟩ := Rc2.expand1_spec t ht (n + 1) i hi hti l
    rw [h] at h1
    cases h1
    simp only [Rc2.expand1, Rc2.subU_ok (show 1 ≤ i by omega), Rc2.subU_ok hti, bind, Except.bind,
      Rc2.vidx_ok (show i - 1 < 128 by omega), Rc2.vidx_ok (show i - t < 128 by omega),
      Rc2.vset_ok (show i < 128 by omega)] at h
    have := ih (i + 1) (by omega) (by omega) _ h
    simp only [expand1T, Rc2.subU_ok (show 1 ≤ i by omega), Rc2.subU_ok hti, bind, Except.bind,
      Rc2.vidx_ok (show i - 1 < 128 by omega), Rc2.vidx_ok (show i - t < 128 by omega),
      Rc2.vset_ok (show i < 128 by omega), this, List.range'_succ, List.map_cons]
    rw [Rc2.tab_lt l' (show i - 1 < 128 by omega), Rc2.tab_lt l' (show i - t < 128 by omega),
      h2 (i - 1) (by omega) (by omega), h2 (i - t) (by omega) (by omega)]

theorem expand2T_places (t8 : Nat) (ht : 1 ≤ t8) (n : Nat) (hn : n + t8 ≤ 128) (l l' : Vector U8 128)
    (h : Rc2.expand2 t8 n l = .ok l') : expand2T t8 n l =
      .ok (l', (List.range n).reverse.map fun k => Rc2.tab l' (k + 1) ^^^ Rc2.tab l' (k + t8)) := by
  induction n generalizing l with
  | zero => cases h; rfl
  | succ n ih =>
    obtain ⟨l'', h1, h2, h3⟩ := Rc2.expand2_spec t8 ht (n + 1) hn l
    rw [h] at h1
    cases h1
    simp only [Rc2.expand2, bind, Except.bind, Rc2.vidx_ok (show n + 1 < 128 by omega),
      Rc2.vidx_ok (show n + t8 < 128 by omega), Rc2.vset_ok (show n < 128 by omega)] at h
    have := ih (by omega) _ h
    simp only [expand2T, bind, Except.bind, Rc2.vidx_ok (show n + 1 < 128 by omega),
      Rc2.vidx_ok (show n + t8 < 128 by omega), Rc2.vset_ok (show n < 128 by omega), this, List.range_succ,
      List.reverse_append, List.reverse_cons, List.reverse_nil, List.nil_append, List.cons_append, List.map_cons]
    rw [Rc2.tab_lt l' (show n + 1 < 128 by omega), Rc2.tab_lt l' (show n + t8 < 128 by omega),
      h2 (n + 1) (by omega) (by omega), h2 (n + t8) (by omega) (by omega)]

/-- C135: exactly which places are read, in terms of the buffers of RFC 2268: `128 - T` of the first loop, one for the
effective length, and `128 - T8` of the second loop, counted downwards. -/
theorem C135_places (key : List U8) (bits : U16) (h1 : 1 ≤ key.length) (h2 : key.length ≤ 128)
    (h3 : 1 ≤ bits.toNat) (h4 : bits.toNat ≤ 1024) :
    ∃ k L1 L2, expandKeyT key bits = .ok (k,
        (List.range' key.length (128 - key.length)).map (fun i => L1 (i - 1) + L1 (i - key.length)) ++
        (L1 (128 - T8 bits.toNat) &&& TM bits.toNat) ::
        (List.range (128 - T8 bits.toNat)).reverse.map (fun i => L2 (i + 1) ^^^ L2 (i + T8 bits.toNat))) ∧
      Expansion key bits.toNat L1 L2 ∧ ∀ i (h : i < 64), k[i] = keyWord L2 i := by
  have hT8 : 1 ≤ T8 bits.toNat ∧ T8 bits.toNat ≤ 128 := by
    unfold T8; omega
  obtain ⟨hT8a, hT8b⟩ := hT8
  have eT8 : (bits.toNat + 7) / 8 = T8 bits.toNat := rfl
  obtain ⟨la, ha, ha1, ha2⟩ := Rc2.expand1_spec key.length h1 (128 - key.length) key.length (by omega)
    (Nat.le_refl _) (Vector.ofFn fun i => if h : i.val < key.length then key[i.val] else 0#8)
  have hk : 128 - T8 bits.toNat < 128 := by omega
  obtain ⟨lb, hb, hb1, hb2⟩ := Rc2.expand2_spec (T8 bits.toNat) hT8a (128 - T8 bits.toNat)
    (by omega) (la.set (128 - T8 bits.toNat) (Rc2.pi (la[128 - T8 bits.toNat] &&& TM bits.toNat)) hk)
  refine ⟨Vector.ofFn fun i => leU16 lb[i.val * 2] lb[i.val * 2 + 1], Rc2.tab la, Rc2.tab lb, ?_, ?_, ?_⟩
  · simp only [expandKeyT, if_neg (show ¬ 128 < key.length by omega),
      expand1T_places key.length h1 _ _ (by omega) (Nat.le_refl _) _ _ ha, bind, Except.bind, Rc2.tm_eq, eT8,
      Rc2.subU_ok hT8b, Rc2.vidx_ok hk, Rc2.vset_ok hk, expand2T_places _ hT8a _ (by omega) _ _ hb, Rc2.tab_lt la hk]
  · constructor
    · intro i hi
      rw [Rc2.tab_lt la (by omega), ha1 i (by omega) hi]
      simp [hi]
    · intro i hle hlt
      rw [Rc2.tab_lt la hlt, Rc2.tab_lt la (show i - 1 < 128 by omega),
        Rc2.tab_lt la (show i - key.length < 128 by omega), ha2 i hlt hle, Rc2.pi_eq]
    · intro i hlt hlt'
      rw [Rc2.tab_lt lb hlt', Rc2.tab_lt la hlt', hb1 i hlt' (by omega), Vector.getElem_set_ne _ _ (by omega)]
    · rw [Rc2.tab_lt lb hk, Rc2.tab_lt la hk, hb1 _ hk (Nat.le_refl _), Vector.getElem_set_self, Rc2.pi_eq]
    · intro i hlt
      rw [Rc2.tab_lt lb (by omega), Rc2.tab_lt lb (show i + 1 < 128 by omega),
        Rc2.tab_lt lb (show i + T8 bits.toNat < 128 by omega), hb2 i hlt, Rc2.pi_eq]
  · intro i hi
    rw [Vector.getElem_ofFn, keyWord, Rc2.tab_lt lb (show 2 * i < 128 by omega),
      Rc2.tab_lt lb (show 2 * i + 1 < 128 by omega)]
    apply BitVec.eq_of_toNat_eq
    rw [leU16_toNat, BitVec.toNat_ofNat]
    have e1 : i * 2 = 2 * i := by omega
    simp only [e1]
    rw [Nat.mod_eq_of_lt]
    have := (lb[2 * i]).isLt; have := (lb[2 * i + 1]).isLt
    omega

/-- C135: the number of lookups depends only on the lengths. -/
theorem C135_count (key : List U8) (bits : U16) (k : Vector U16 64) (places : List U8)
    (h : expandKeyT key bits = .ok (k, places)) :
    places.length = (128 - key.length) + 1 + (128 - T8 bits.toNat) := by
  have hok : ∃ k, Rc2.fromKey key bits = .ok k := ⟨⟨k⟩, by rw [← C135_same, h]; rfl⟩
  obtain ⟨⟨h1, h2⟩, h3, h4⟩ := (C18_rc2_domain key bits).1 hok
  obtain ⟨k', L1, L2, e, _⟩ := C135_places key bits h1 h2 h3 h4
  rw [h] at e
  cases e
  simp
  omega

/-- The key of `T` bytes that someone computes who sees the places: byte `i` is place `i` minus the entry read at place
`i - 1`, and byte 0 is place 0 minus the last byte. -/
def rc2KeyBytes (T : Nat) (places : List U8) : List U8 :=
  let byte := fun i => places.getD i 0#8 - Spec.Rc2.pi (places.getD (i - 1) 0#8)
  (places.getD 0 0#8 - byte (T - 1)) :: (List.range' 1 (T - 1)).map byte

/-- C135: the places give away the key: of 2 to 64 bytes, with any effective length. -/
theorem C135_key (key : List U8) (bits : U16) (h1 : 2 ≤ key.length) (h2 : key.length ≤ 64) (k : Vector U16 64)
    (places : List U8) (h : expandKeyT key bits = .ok (k, places)) : rc2KeyBytes key.length places = key := by
  have hok : ∃ k, Rc2.fromKey key bits = .ok k := ⟨⟨k⟩, by rw [← C135_same, h]; rfl⟩
  obtain ⟨_, h3, h4⟩ := (C18_rc2_domain key bits).1 hok
  obtain ⟨k', L1, L2, e, hx, _⟩ := C135_places key bits (by omega) (by omega) h3 h4
  rw [h] at e
  have e2 := congrArg Prod.snd (Except.ok.inj e)
  simp only at e2
  have hp : ∀ i < key.length, places.getD i 0#8 = L1 (key.length + i - 1) + L1 i := by
    intro i hi
    rw [e2, List.getD_eq_getElem?_getD, List.getElem?_append_left (by simp; omega)]
    rw [List.getElem?_map, List.getElem?_range' (by omega)]
    simp
  have hb : ∀ i, 1 ≤ i → i < key.length →
      places.getD i 0#8 - Spec.Rc2.pi (places.getD (i - 1) 0#8) = L1 i := by
    intro i h0 hi
    rw [hp i hi, hp (i - 1) (by omega)]
    have := hx.loop1 (key.length + i - 1) (by omega) (by omega)
    rw [show key.length + i - 1 - key.length = i - 1 by omega] at this
    rw [show key.length + (i - 1) - 1 = key.length + i - 1 - 1 by omega, ← this, BitVec.add_comm, BitVec.add_sub_cancel]
  unfold rc2KeyBytes
  simp only
  apply List.ext_getElem
  · simp; omega
  · intro i hi hi'
    cases i with
    | zero =>
      rw [List.getElem_cons_zero, hb (key.length - 1) (by omega) (by omega), hp 0 (by omega),
        show key.length + 0 - 1 = key.length - 1 by omega, BitVec.add_comm, BitVec.add_sub_cancel, hx.init 0 hi']
    | succ i =>
      rw [List.getElem_cons_succ, List.getElem_map, List.getElem_range', hb _ (by omega) (by omega),
        show 1 + 1 * i = i + 1 by omega, hx.init (i + 1) hi']

/-- C135: for effective lengths of at most 512 bits the places give away the cipher, whatever the length of the key. -/
theorem C135_object (key key' : List U8) (bits : U16) (hb : bits.toNat ≤ 512) (k k' : Vector U16 64) (places : List U8)
    (h : expandKeyT key bits = .ok (k, places)) (h' : expandKeyT key' bits = .ok (k', places)) : k = k' := by
  have hok : ∃ k, Rc2.fromKey key bits = .ok k := ⟨⟨k⟩, by rw [← C135_same, h]; rfl⟩
  have hok' : ∃ k, Rc2.fromKey key' bits = .ok k := ⟨⟨k'⟩, by rw [← C135_same, h']; rfl⟩
  obtain ⟨⟨a1, a2⟩, h3, h4⟩ := (C18_rc2_domain key bits).1 hok
  obtain ⟨⟨b1, b2⟩, _, _⟩ := (C18_rc2_domain key' bits).1 hok'
  have hlen := C135_count key bits k places h
  have hlen' := C135_count key' bits k' places h'
  have hl : key.length = key'.length := by omega
  have hT8 : 1 ≤ T8 bits.toNat ∧ T8 bits.toNat ≤ 64 := by
    unfold T8; omega
  obtain ⟨_, L1, L2, e, hx, hw⟩ := C135_places key bits a1 a2 h3 h4
  obtain ⟨_, L1', L2', e', hx', hw'⟩ := C135_places key' bits b1 b2 h3 h4
  rw [h] at e
  rw [h'] at e'
  have e1 := Except.ok.inj e
  have e1' := Except.ok.inj e'
  rw [Prod.mk.injEq] at e1 e1'
  obtain ⟨ek, ep⟩ := e1
  obtain ⟨ek', ep'⟩ := e1'
  subst ek ek'
  have hp := ep.symm.trans ep'
  have hp2 := (List.append_inj hp (by simp [hl])).2
  obtain ⟨hm, hp3⟩ := List.cons.inj hp2
  have hp4 : ∀ i < 128 - T8 bits.toNat, L2 (i + 1) ^^^ L2 (i + T8 bits.toNat) = L2' (i + 1) ^^^ L2' (i + T8 bits.toNat) := by
    intro i hi
    exact List.map_inj_left.1 hp3 i (by simp [hi])
  have hlow : ∀ i ≤ 128 - T8 bits.toNat, L2 i = L2' i := by
    intro i hi
    rcases Nat.eq_or_lt_of_le hi with rfl | hlt
    · rw [hx.mask, hx'.mask, hm]
    · rw [hx.loop2 i hlt, hx'.loop2 i hlt, hp4 i hlt]
  have hall : ∀ i < 128, L2 i = L2' i := by
    intro i hi
    by_cases hle : i ≤ 128 - T8 bits.toNat
    · exact hlow i hle
    · have := hp4 (i - T8 bits.toNat) (by omega)
      rw [show i - T8 bits.toNat + T8 bits.toNat = i by omega, hlow (i - T8 bits.toNat + 1) (by omega)] at this
      exact (BitVec.xor_right_inj _).1 this
  apply Vector.ext
  intro i hi
  rw [hw i hi, hw' i hi, keyWord, keyWord, hall _ (by omega), hall _ (by omega)]

/-- C135: keys of one byte go in pairs: the highest bit of the byte has no influence, unless the effective length is the
longest possible, 1024 bits. So neither the places nor anything else gives away that bit. -/
theorem C135_one_byte (b : U8) (bits : U16) (h0 : 1 ≤ bits.toNat) (hb : bits.toNat ≤ 1023) :
    expandKeyT [b + 128#8] bits = expandKeyT [b] bits ∧ Rc2.fromKey [b + 128#8] bits = Rc2.fromKey [b] bits := by
  suffices h : expandKeyT [b + 128#8] bits = expandKeyT [b] bits by
    exact ⟨h, by rw [← C135_same, ← C135_same, h]⟩
  obtain ⟨k, L1, L2, e, hx, hw⟩ := C135_places [b + 128#8] bits (by simp) (by simp) h0 (by omega)
  obtain ⟨k', L1', L2', e', hx', hw'⟩ := C135_places [b] bits (by simp) (by simp) h0 (by omega)
  simp only [List.length_singleton] at e e'
  have hT8 : 1 ≤ T8 bits.toNat ∧ T8 bits.toNat ≤ 128 := by
    unfold T8; omega
  have i0 : L1 0 = b + 128#8 := hx.init 0 (by simp)
  have i0' : L1' 0 = b := hx'.init 0 (by simp)
  have hdbl : L1 0 + L1 0 = L1' 0 + L1' 0 := by
    rw [i0, i0']
    have : b + 128#8 + (b + 128#8) = b + b + (128#8 + 128#8) := by ac_rfl
    rw [this]
    simp
  have hL1 : ∀ i, i + 1 < 128 → L1 i + L1 i = L1' i + L1' i ∧ L1 (i + 1) = L1' (i + 1) := by
    intro i
    induction i with
    | zero =>
      intro _
      refine ⟨hdbl, ?_⟩
      have a := hx.loop1 1 (by simp) (by omega)
      have a' := hx'.loop1 1 (by simp) (by omega)
      simp only [List.length_singleton, Nat.sub_self] at a a'
      rw [a, a', hdbl]
    | succ i ih =>
      intro hi
      have hprev := (ih (by omega)).2
      refine ⟨by rw [hprev], ?_⟩
      have a := hx.loop1 (i + 1 + 1) (by simp) hi
      have a' := hx'.loop1 (i + 1 + 1) (by simp) hi
      simp only [List.length_singleton, Nat.add_sub_cancel] at a a'
      rw [a, a', hprev]
  have hpos : ∀ i, 1 ≤ i → i < 128 → L1 i = L1' i := by
    intro i h1 h2
    have := (hL1 (i - 1) (by omega)).2
    rwa [show i - 1 + 1 = i by omega] at this
  have hmask : L1 (128 - T8 bits.toNat) &&& TM bits.toNat = L1' (128 - T8 bits.toNat) &&& TM bits.toNat := by
    by_cases h128 : T8 bits.toNat = 128
    · rw [h128, i0, i0']
      have hn : ∃ n, n < 8 ∧ TM bits.toNat = BitVec.ofNat 8 (2 ^ n - 1) := by
        refine ⟨bits.toNat - 1016, by omega, ?_⟩
        unfold T8 at h128
        unfold TM T8
        rw [show 8 + bits.toNat - 8 * ((bits.toNat + 7) / 8) = bits.toNat - 1016 by omega]
        have : bits.toNat - 1016 < 8 := by omega
        generalize bits.toNat - 1016 = n at this ⊢
        revert n
        decide
      obtain ⟨n, hn, e⟩ := hn
      rw [e]
      exact (show ∀ b : U8, ∀ n < 8, b + 128#8 &&& BitVec.ofNat 8 (2 ^ n - 1) = b &&& BitVec.ofNat 8 (2 ^ n - 1) by
        decide +kernel) b n hn
    · rw [hpos _ (by omega) (by omega)]
  have hL2 := Rc2.expansion_unique h0 (by omega) hx hx' hmask (fun i h1 h2 => hpos i (by omega) h2)
  rw [e, e']
  have hk : k = k' := by
    apply Vector.ext
    intro i hi
    rw [hw i hi, hw' i hi, keyWord, keyWord, hL2 _ (by omega), hL2 _ (by omega)]
  have p1 : (List.range' 1 (128 - 1)).map (fun i => L1 (i - 1) + L1 (i - 1)) =
      (List.range' 1 (128 - 1)).map (fun i => L1' (i - 1) + L1' (i - 1)) := by
    refine List.map_congr_left fun i hi => ?_
    have hi' : 1 ≤ i ∧ i < 128 := by simpa using hi
    have := (hL1 (i - 1) (by omega)).1
    exact this
  have p2 : (List.range (128 - T8 bits.toNat)).reverse.map (fun i => L2 (i + 1) ^^^ L2 (i + T8 bits.toNat)) =
      (List.range (128 - T8 bits.toNat)).reverse.map (fun i => L2' (i + 1) ^^^ L2' (i + T8 bits.toNat)) := by
    refine List.map_congr_left fun i hi => ?_
    have hi' : i < 128 - T8 bits.toNat := by simpa using hi
    rw [hL2 _ (by omega), hL2 _ (by omega)]
  rw [hk, hmask, p1, p2]

/-! ## Concrete cases -/

example : ((expandKeyT [1#8, 2#8, 3#8] 64#16).toOption.map fun r => (r.2.length, r.2.take 3, rc2KeyBytes 3 r.2)) =
    some (246, [4#8, 27#8, 139#8], [1#8, 2#8, 3#8]) := by decide +kernel
example : ∀ k places, expandKeyT [1#8, 2#8, 3#8] 64#16 = .ok (k, places) → rc2KeyBytes 3 places = [1#8, 2#8, 3#8] :=
  fun k places h => C135_key [1#8, 2#8, 3#8] 64#16 (by decide) (by decide) k places h
example := C135_places [1#8, 2#8, 3#8] 64#16 (by decide) (by decide) (by decide) (by decide)
example : ∀ k k' places, expandKeyT [7#8] 64#16 = .ok (k, places) → expandKeyT [135#8] 64#16 = .ok (k', places) → k = k' :=
  fun k k' places => C135_object [7#8] [135#8] 64#16 (by decide) k k' places
example : Rc2.fromKey [135#8] 64#16 = Rc2.fromKey [7#8] 64#16 := (C135_one_byte 7#8 64#16 (by decide) (by decide)).2
/-- With 1024 bits the two keys differ, and so do two keys of two bytes. -/
example : Rc2.fromKey [135#8] 1024#16 ≠ Rc2.fromKey [7#8] 1024#16 := by decide +kernel
example : Rc2.fromKey [135#8, 1#8] 64#16 ≠ Rc2.fromKey [7#8, 1#8] 64#16 := by decide +kernel

end Verif.Props
