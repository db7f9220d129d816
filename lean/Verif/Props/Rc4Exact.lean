import Mathlib.Combinatorics.Pigeonhole
import Mathlib.Data.Set.Card
import Mathlib.Data.Fintype.Perm
import Verif.Props.Rc4

/-! # C120: the RC4 ciphers, counted, and the second byte of the key stream -/

namespace Verif.Props
open Verif Model Spec

/-! ## Every permutation is the table of some key -/

theorem rc4_ksaN_succ (key : List U8) (hk : 0 < key.length) (n : Nat) (hn : n + 1 ≤ 256) :
    Rc4.ksaN key hk (n + 1) hn = Rc4.ksaStep key hk n (by omega) (Rc4.ksaN key hk n (by omega)) := by
  simp [Rc4.ksaN, Nat.fold_succ]

theorem rc4_ksaN_congr (k1 k2 : List U8) (h1 : 0 < k1.length) (h2 : 0 < k2.length) (n : Nat) (hn : n ≤ 256)
    (h : ∀ i < n, k1[i % k1.length]? = k2[i % k2.length]?) : Rc4.ksaN k1 h1 n hn = Rc4.ksaN k2 h2 n hn := by
  induction n with
  | zero => rfl
  | succ n ih =>
    have hk := h n (by omega)
    rw [List.getElem?_eq_getElem (Nat.mod_lt _ h1), List.getElem?_eq_getElem (Nat.mod_lt _ h2)] at hk
    simp only [Option.some.injEq] at hk
    rw [rc4_ksaN_succ, rc4_ksaN_succ, ih (by omega) fun i hi => h i (by omega)]
    simp only [Rc4.ksaStep, hk]

/-- The 256-byte key with the bytes `f 0`, `f 1`, … -/
def rc4Key (f : Nat → U8) : List U8 := (List.range 256).map f

theorem rc4Key_length (f : Nat → U8) : (rc4Key f).length = 256 := by simp [rc4Key]

theorem rc4_reach (T : Vector U8 256) (hT : ∀ i j (hi : i < 256) (hj : j < 256), T[i] = T[j] → i = j) (n : Nat) (hn : n ≤ 256) :
    ∃ f : Nat → U8, ∀ i (hi : i < n), (Rc4.ksaN (rc4Key f) (by simp [rc4Key_length]) n hn).1[i] = T[i] := by
  induction n with
  | zero => exact ⟨fun _ => 0#8, fun i hi => absurd hi (by omega)⟩
  | succ n ih =>
    obtain ⟨f, hf⟩ := ih (by omega)
    have hpos : 0 < (rc4Key f).length := by simp [rc4Key_length]
    have hperm := Rc4.ksaN_perm (rc4Key f) hpos n (by omega)
    generalize hS : Rc4.ksaN (rc4Key f) hpos n (by omega) = S at hf hperm
    have hmem : T[n] ∈ S.1.toList := by
      rw [hperm.mem_iff, List.mem_map]
      exact ⟨T[n].toNat, by simpa using T[n].isLt, by simp⟩
    obtain ⟨p, hp, e⟩ := List.mem_iff_getElem.1 hmem
    have hp' : p < 256 := by simpa using hp
    rw [Vector.getElem_toList] at e
    have hpn : n ≤ p := by
      by_contra hlt
      rw [hf p (by omega)] at e
      have := hT p n hp' (by omega) e
      omega
    let f' : Nat → U8 := fun i => if i = n then BitVec.ofNat 8 p - S.1[n] - S.2 else f i
    refine ⟨f', fun i hi => ?_⟩
    have hpos' : 0 < (rc4Key f').length := by simp [rc4Key_length]
    have hprev : Rc4.ksaN (rc4Key f') hpos' n (by omega) = S := by
      rw [← hS]
      refine rc4_ksaN_congr _ _ _ _ _ _ fun i hi => ?_
      rw [rc4Key_length, rc4Key_length, Nat.mod_eq_of_lt (by omega)]
      simp only [rc4Key, List.getElem?_map]
      rw [List.getElem?_range (by omega)]
      simp only [Option.map_some, f']
      rw [if_neg (by omega)]
    have hj : ((rc4Key f')[n % (rc4Key f').length]'(Nat.mod_lt _ hpos') + S.1[n] + S.2).toNat = p := by
      have : (rc4Key f')[n % (rc4Key f').length]'(Nat.mod_lt _ hpos') = BitVec.ofNat 8 p - S.1[n] - S.2 := by
        simp only [rc4Key_length, Nat.mod_eq_of_lt (show n < 256 by omega)]
        simp [rc4Key, f']
      rw [this, BitVec.sub_sub, BitVec.add_assoc, BitVec.sub_add_cancel]
      simp [Nat.mod_eq_of_lt hp']
    have hstep : (Rc4.ksaN (rc4Key f') hpos' (n + 1) hn).1 = S.1.swap n p (by omega) hp' := by
      rw [rc4_ksaN_succ, hprev]
      simp only [Rc4.ksaStep, hj]
    simp only [hstep]
    rw [Vector.getElem_swap]
    by_cases h1 : i = n
    · subst h1; rw [if_pos rfl]; exact e
    · rw [if_neg h1, if_neg (by omega)]
      exact hf i (by omega)

/-- C120: every permutation of the 256 bytes is the table that key scheduling makes from some key of 256 bytes. -/
theorem C120_every_permutation (T : Vector U8 256) (hT : T.toList.Perm ((List.range 256).map (BitVec.ofNat 8))) :
    ∃ key, key.length = 256 ∧ Rc4.new key = .ok ⟨T, 0#8, 0#8⟩ := by
  have hnd : T.toList.Nodup := by
    refine hT.nodup_iff.2 ((List.nodup_range).map_on ?_)
    intro a ha b hb h
    have := congrArg BitVec.toNat h
    simp only [BitVec.toNat_ofNat, List.mem_range] at this ha hb
    omega
  obtain ⟨f, hf⟩ := rc4_reach T (fun i j hi hj h => by
    have := (List.Nodup.getElem_inj_iff hnd (hi := by simpa using hi) (hj := by simpa using hj)).1 (by simpa using h)
    exact this) 256 (le_refl _)
  refine ⟨rc4Key f, rc4Key_length f, ?_⟩
  rw [Rc4.new_ok _ (by simp [rc4Key_length]), Vector.ext hf]

/-! ## Counting -/

/-- The cipher object with the table `σ`. -/
def rc4Object (σ : Equiv.Perm (Fin 256)) : Rc4.KeyStream := ⟨Vector.ofFn fun i => BitVec.ofFin (σ i), 0#8, 0#8⟩

theorem rc4Object_injective : Function.Injective rc4Object := by
  intro σ τ h
  have h1 : (rc4Object σ).state = (rc4Object τ).state := by rw [h]
  ext i
  have := congrArg (fun v : Vector U8 256 => v[i.val].toNat) h1
  simpa [rc4Object] using this

theorem rc4Object_perm (σ : Equiv.Perm (Fin 256)) :
    (rc4Object σ).state.toList.Perm ((List.range 256).map (BitVec.ofNat 8)) := by
  have h1 : (rc4Object σ).state.toList = (List.finRange 256).map (fun i => (BitVec.ofFin (σ i) : U8)) := by
    apply List.ext_getElem
    · simp
    · intro i h1 h2
      simp [rc4Object]
  have h2 : (List.range 256).map (BitVec.ofNat 8) = (List.finRange 256).map (fun i => (BitVec.ofFin i : U8)) := by
    apply List.ext_getElem
    · simp
    · intro i h1 h2
      apply BitVec.eq_of_toNat_eq
      simp
      simp at h1
      omega
  rw [h1, h2, show (fun i => (BitVec.ofFin (σ i) : U8)) = (fun i => (BitVec.ofFin i : U8)) ∘ σ from rfl, ← List.map_map]
  refine List.Perm.map _ ?_
  rw [List.perm_ext_iff_of_nodup ((List.nodup_finRange 256).map σ.injective) (List.nodup_finRange 256)]
  intro a
  simp only [List.mem_map, List.mem_finRange, true_and, iff_true]
  exact ⟨σ.symm a, by simp⟩

theorem rc4_new_object (key : List U8) (ks : Rc4.KeyStream) (h : Rc4.new key = .ok ks) : ∃ σ, rc4Object σ = ks := by
  have hk : 0 < key.length := by
    by_contra hk
    have : key = [] := List.length_eq_zero_iff.1 (by omega)
    subst this
    cases h
  rw [Rc4.new_ok key hk] at h
  have hp := Rc4.ksaN_perm key hk 256 (by omega)
  rw [← Except.ok.inj h]
  generalize (Rc4.ksaN key hk 256 (by omega)).1 = T at hp
  have hnd : T.toList.Nodup := by
    refine List.Perm.nodup_iff hp |>.2 ((List.nodup_range).map_on ?_)
    intro a ha b hb h
    have := congrArg BitVec.toNat h
    simp only [BitVec.toNat_ofNat, List.mem_range] at this ha hb
    omega
  have hinj : Function.Injective (fun i : Fin 256 => T[i.val].toFin) := by
    intro i j hij
    have := BitVec.toFin_inj.1 hij
    exact Fin.ext ((List.Nodup.getElem_inj_iff hnd (hi := by simp) (hj := by simp)).1 (by simpa using this))
  refine ⟨Equiv.ofBijective _ (Finite.injective_iff_bijective.1 hinj), ?_⟩
  have hv : (Vector.ofFn fun i : Fin 256 => (BitVec.ofFin (T[i.val].toFin) : U8)) = T := by
    apply Vector.ext
    intro i hi
    simp
  exact congrArg (fun v => (⟨v, 0#8, 0#8⟩ : Rc4.KeyStream)) hv

/-- C120: over all keys there are exactly 256! RC4 ciphers. -/
theorem C120_exactly_factorial : {ks | ∃ key, Rc4.new key = .ok ks}.ncard = Nat.factorial 256 := by
  have h : {ks | ∃ key, Rc4.new key = .ok ks} = Set.range rc4Object := by
    ext ks
    constructor
    · rintro ⟨key, h⟩
      exact rc4_new_object key ks h
    · rintro ⟨σ, rfl⟩
      obtain ⟨key, _, h⟩ := C120_every_permutation _ (rc4Object_perm σ)
      exact ⟨key, h⟩
  rw [h, ← Set.image_univ, Set.ncard_image_of_injective _ rc4Object_injective, Set.ncard_univ, Nat.card_eq_fintype_card,
    Fintype.card_perm, Fintype.card_fin]

theorem shared_fiber {α β : Type} [Fintype α] [Fintype β] [Nonempty β] (f : α → β) (n : Nat)
    (h : Fintype.card β * n ≤ Fintype.card α) : ∃ b, ∃ s : Finset α, n ≤ s.card ∧ ∀ a ∈ s, f a = b := by
  classical
  obtain ⟨b, hb⟩ := Fintype.exists_le_card_fiber_of_mul_le_card f h
  exact ⟨b, _, hb, fun a ha => (Finset.mem_filter.1 ha).2⟩

/-- C120: so keys are not told apart: some cipher belongs to at least 2^360 different keys of 256 bytes. -/
theorem C120_shared : ∃ ks, ∃ keys : Finset (List U8), 2 ^ 360 ≤ keys.card ∧
    ∀ key ∈ keys, key.length = 256 ∧ Rc4.new key = .ok ks := by
  classical
  let key : (Fin 256 → Fin 256) → List U8 := fun f => rc4Key fun i => if h : i < 256 then BitVec.ofFin (f ⟨i, h⟩) else 0#8
  have hkey : Function.Injective key := by
    intro f g h
    funext i
    have := congrArg (fun l => l[i.val]?) h
    simpa [key, rc4Key] using this
  have hex : ∀ f, ∃ σ, Rc4.new (key f) = .ok (rc4Object σ) := by
    intro f
    have hk : 0 < (key f).length := by simp [key, rc4Key_length]
    obtain ⟨σ, h⟩ := rc4_new_object _ _ (Rc4.new_ok (key f) hk)
    exact ⟨σ, by rw [h, Rc4.new_ok _ hk]⟩
  choose σ hσ using hex
  obtain ⟨τ, fs, hcard, hfs⟩ := shared_fiber σ (2 ^ 360) (by
    rw [Fintype.card_perm, Fintype.card_fun, Fintype.card_fin]
    decide +kernel)
  refine ⟨rc4Object τ, fs.map ⟨key, hkey⟩, by rw [Finset.card_map]; exact hcard, ?_⟩
  intro k hk
  rw [Finset.mem_map] at hk
  obtain ⟨f, hf, rfl⟩ := hk
  refine ⟨rc4Key_length _, ?_⟩
  rw [← hfs f hf]
  exact hσ f

/-! ## The second byte -/

theorem rc4_after_zero (key : List Nat) : Rc4.after key 0 = ⟨(Rc4.ksa key 256).1, 0, 0⟩ := rfl

theorem rc4_after_succ (key : List Nat) (n : Nat) : Rc4.after key (n + 1) =
    ⟨Rc4.swap (Rc4.after key n).S (((Rc4.after key n).i + 1) % 256)
        (((Rc4.after key n).j + (Rc4.after key n).S (((Rc4.after key n).i + 1) % 256)) % 256),
      ((Rc4.after key n).i + 1) % 256,
      ((Rc4.after key n).j + (Rc4.after key n).S (((Rc4.after key n).i + 1) % 256)) % 256⟩ := rfl

/-- C120: whenever the scheduled table of a key has 0 in place 2 and not 2 in place 1, the second byte of the key stream is 0.
(One in 256 tables is such, so that the second byte is 0 about twice as often as it should be.) -/
theorem C120_second_byte (key : List Nat) (h2 : (Rc4.ksa key 256).1 2 = 0) (h1 : (Rc4.ksa key 256).1 1 ≠ 2)
    (hlt : (Rc4.ksa key 256).1 1 < 256) : Rc4.stream key 1 = 0 := by
  unfold Rc4.stream
  rw [rc4_after_succ, rc4_after_succ, rc4_after_zero]
  generalize (Rc4.ksa key 256).1 = S at h1 h2 hlt
  generalize ha : S 1 = a at h1 hlt
  simp only [Nat.zero_add, Nat.reduceMod, Nat.reduceAdd, ha, Nat.mod_eq_of_lt hlt]
  show Rc4.swap (Rc4.swap S 1 a) 2 ((a + Rc4.swap S 1 a 2) % 256) ((Rc4.swap (Rc4.swap S 1 a) 2 ((a + Rc4.swap S 1 a 2) % 256) 2 +
    Rc4.swap (Rc4.swap S 1 a) 2 ((a + Rc4.swap S 1 a 2) % 256) ((a + Rc4.swap S 1 a 2) % 256)) % 256) = 0
  have e2 : Rc4.swap S 1 a 2 = 0 := by
    unfold Rc4.swap
    rw [if_neg (by omega), if_neg (by omega), h2]
  have e3 : Rc4.swap S 1 a a = a := by
    unfold Rc4.swap
    by_cases h : a = 1
    · rw [if_pos h]; subst h; exact ha
    · rw [if_neg h, if_pos rfl, ha]
  rw [e2, Nat.add_zero, Nat.mod_eq_of_lt hlt]
  generalize Rc4.swap S 1 a = S' at e2 e3
  have e4 : Rc4.swap S' 2 a 2 = a := by
    unfold Rc4.swap; rw [if_pos rfl, e3]
  have e5 : Rc4.swap S' 2 a a = 0 := by
    unfold Rc4.swap
    rw [if_neg h1, if_pos rfl, e2]
  rw [e4, e5, Nat.add_zero, Nat.mod_eq_of_lt hlt, e5]

/-- C120: the second byte of every message is then sent in the clear. -/
theorem C120_second_byte_in_clear (key : List U8) (hkey : key ≠ []) (h2 : (Rc4.ksa (key.map BitVec.toNat) 256).1 2 = 0)
    (h1 : (Rc4.ksa (key.map BitVec.toNat) 256).1 1 ≠ 2) (a b : U8) (m : List U8) :
    ∃ ks ct, Rc4.new key = .ok ks ∧ Rc4.encrypt ks (a :: b :: m) = .ok ct ∧ ct[1]? = some b := by
  obtain ⟨ks, hn, he⟩ := C12_rc4_encrypt key hkey (a :: b :: m)
  have hk : 0 < key.length := List.length_pos_iff.2 hkey
  have hlt : (Rc4.ksa (key.map BitVec.toNat) 256).1 1 < 256 := by
    rw [← (Rc4.ksaN_spec key hk 256 (by omega)).1 1 (by omega)]
    exact BitVec.isLt _
  refine ⟨ks, _, hn, he, ?_⟩
  have := C120_second_byte (key.map BitVec.toNat) h2 h1 hlt
  simp [List.getElem?_zipWith, this]

/-- Not vacuous: the key 8, 5. -/
example : (Rc4.ksa [8, 5] 256).1 2 = 0 ∧ (Rc4.ksa [8, 5] 256).1 1 = 14 := by decide +kernel

/-- C120 applied: a key that leaves the numbers in descending order. -/
example : ∃ key, key.length = 256 ∧ Rc4.new key = .ok ⟨Vector.ofFn fun i => BitVec.ofNat 8 (255 - i.val), 0#8, 0#8⟩ :=
  C120_every_permutation _ (by decide +kernel)

end Verif.Props
