import Verif.Proof.Aes
import Verif.Proof.Rc2
import Verif.Proof.Rc5
import Mathlib.GroupTheory.Perm.Sign
import Mathlib.Data.Fintype.Pi
import Mathlib.Data.Fintype.EquivFin
import Mathlib.Tactic.IntervalCases

/-! # Even permutations -/

namespace Verif.Parity
open Verif Equiv Equiv.Perm

/-- If a permutation leaves one bit `b` of its argument alone and does the same whatever that bit is then it is even: it does
everything twice. -/
theorem even_of_free_bit {X : Type} [Fintype X] [DecidableEq X] (σ : Perm X) (τ : X → X) (b : X → Bool)
    (hτ : ∀ x, τ (τ x) = x) (hc : ∀ x, σ (τ x) = τ (σ x)) (hb : ∀ x, b (σ x) = b x) (hbt : ∀ x, b (τ x) = !b x) :
    sign σ = 1 := by
  have hb' : ∀ x, b (σ.symm x) = b x := fun x => by rw [← hb (σ.symm x), σ.apply_symm_apply]
  let σ' : Perm {x // b x = true} :=
    ⟨fun x => ⟨σ x.1, by rw [hb, x.2]⟩, fun x => ⟨σ.symm x.1, by rw [hb', x.2]⟩, fun x => by simp, fun x => by simp⟩
  let e : X ≃ Bool × {x // b x = true} :=
    { toFun := fun x => if h : b x = true then (true, ⟨x, h⟩) else (false, ⟨τ x, by rw [hbt]; simpa using h⟩)
      invFun := fun y => if y.1 then y.2.1 else τ y.2.1
      left_inv := fun x => by
        by_cases h : b x = true
        · simp [h]
        · simp [h, hτ]
      right_inv := fun y => by
        obtain ⟨c, x, hx⟩ := y
        cases c
        · have : b (τ x) = false := by rw [hbt, hx]; rfl
          simp [this, hτ]
        · simp [hx] }
  have h := sign_eq_sign_of_equiv σ (prodCongrRight fun _ : Bool => σ') e (by
    intro x
    by_cases h : b x = true
    · have h1 : b (σ x) = true := by rw [hb, h]
      simp [e, h, h1, σ', prodCongrRight]
    · have h1 : ¬ b (σ x) = true := by rw [hb]; exact h
      simp [e, h, h1, σ', prodCongrRight, hc])
  rw [h, sign_prodCongrRight]
  simp [Int.units_mul_self]

/-- `f` is an even permutation. -/
def EvenMap {X : Type} [Fintype X] [DecidableEq X] (f : X → X) : Prop := ∃ σ : Perm X, (∀ x, σ x = f x) ∧ sign σ = 1

section
variable {X Y : Type} [Fintype X] [DecidableEq X] [Fintype Y] [DecidableEq Y]

theorem EvenMap.same {f g : X → X} (h : EvenMap f) (hfg : ∀ x, g x = f x) : EvenMap g := by
  obtain ⟨σ, h1, h2⟩ := h
  exact ⟨σ, fun x => by rw [h1, hfg], h2⟩

theorem EvenMap.id : EvenMap (fun x : X => x) := ⟨1, fun _ => rfl, sign_one⟩

theorem EvenMap.comp {f g : X → X} (hf : EvenMap f) (hg : EvenMap g) : EvenMap (fun x => f (g x)) := by
  obtain ⟨σ, h1, h2⟩ := hf
  obtain ⟨ρ, h3, h4⟩ := hg
  exact ⟨σ * ρ, fun x => by rw [mul_apply, h3, h1], by rw [sign_mul, h2, h4, mul_one]⟩

theorem EvenMap.conj {f : X → X} (hf : EvenMap f) (e : X ≃ Y) : EvenMap (fun y => e (f (e.symm y))) := by
  obtain ⟨σ, h1, h2⟩ := hf
  refine ⟨(e.symm.trans σ).trans e, fun y => by simp [h1], ?_⟩
  rw [sign_symm_trans_trans, h2]

theorem EvenMap.of_bit {f : X → X} (hf : Function.Injective f) (τ : X → X) (b : X → Bool)
    (hτ : ∀ x, τ (τ x) = x) (hc : ∀ x, f (τ x) = τ (f x)) (hb : ∀ x, b (f x) = b x) (hbt : ∀ x, b (τ x) = !b x) :
    EvenMap f :=
  ⟨Equiv.ofBijective f (Finite.injective_iff_bijective.1 hf), fun _ => rfl,
    even_of_free_bit _ τ b hτ (fun x => by simpa using hc x) (fun x => by simpa using hb x) hbt⟩

theorem EvenMap.fold (n : Nat) (f : (i : Nat) → i < n → X → X) (h : ∀ i hi, EvenMap (f i hi)) :
    EvenMap (fun x => Nat.fold n f x) := by
  induction n with
  | zero => simpa using EvenMap.id
  | succ n ih =>
    simp only [Nat.fold_succ]
    exact (h n (by omega)).comp (ih _ fun i hi => h i (by omega))

end

instance (w : Nat) : Finite (BitVec w) :=
  Finite.of_injective (fun b : BitVec w => b.toFin) fun a b h => BitVec.eq_of_toFin_eq h
noncomputable instance (w : Nat) : Fintype (BitVec w) := Fintype.ofFinite _
instance (w N : Nat) : Finite (Vector (BitVec w) N) :=
  Finite.of_injective (fun v : Vector (BitVec w) N => fun i : Fin N => v[i]) fun a b h =>
    Vector.ext fun i hi => congrFun h ⟨i, hi⟩
noncomputable instance (w N : Nat) : Fintype (Vector (BitVec w) N) := Fintype.ofFinite _

theorem getLsbD_flip {w : Nat} (x m : BitVec w) (k : Nat) (hm : m.getLsbD k = true) :
    (x ^^^ m).getLsbD k = !x.getLsbD k := by
  rw [BitVec.getLsbD_xor, hm, Bool.xor_true]

theorem flip_flip {w : Nat} (x m : BitVec w) : x ^^^ m ^^^ m = x := by
  rw [BitVec.xor_assoc, BitVec.xor_self, BitVec.xor_zero]

/-! ## AES -/

section aes
open Verif.Model.Aes

/-- The bytes below 8 (columns 0 and 1) of the result depend only on those of the argument, and the others on the others. -/
structure Halves (F : State → State) : Prop where
  low : ∀ s t : State, (∀ i (h : i < 16), i < 8 → s[i] = t[i]) → ∀ i (h : i < 16), i < 8 → (F s)[i] = (F t)[i]
  high : ∀ s t : State, (∀ i (h : i < 16), 8 ≤ i → s[i] = t[i]) → ∀ i (h : i < 16), 8 ≤ i → (F s)[i] = (F t)[i]

def lower (F : State → State) (s : State) : State := Vector.ofFn fun i => if i.val < 8 then (F s)[i.val] else s[i.val]
def upper (F : State → State) (s : State) : State := Vector.ofFn fun i => if i.val < 8 then s[i.val] else (F s)[i.val]

theorem lower_low (F : State → State) (s : State) (i : Nat) (h : i < 16) (h8 : i < 8) : (lower F s)[i] = (F s)[i] := by
  simp [lower, h8]
theorem lower_high (F : State → State) (s : State) (i : Nat) (h : i < 16) (h8 : 8 ≤ i) : (lower F s)[i] = s[i] := by
  simp [lower, show ¬ i < 8 by omega]
theorem upper_low (F : State → State) (s : State) (i : Nat) (h : i < 16) (h8 : i < 8) : (upper F s)[i] = s[i] := by
  simp [upper, h8]
theorem upper_high (F : State → State) (s : State) (i : Nat) (h : i < 16) (h8 : 8 ≤ i) : (upper F s)[i] = (F s)[i] := by
  simp [upper, show ¬ i < 8 by omega]

/-- Byte `j` with its lowest bit changed. -/
def flipByte (j : Nat) (hj : j < 16) (s : State) : State := s.set j (s[j] ^^^ 1#8)

theorem flipByte_flipByte (j : Nat) (hj : j < 16) (s : State) : flipByte j hj (flipByte j hj s) = s := by
  unfold flipByte
  rw [Vector.getElem_set_self, flip_flip, Vector.set_set, Vector.set_getElem_self]

theorem flipByte_ne (j : Nat) (hj : j < 16) (s : State) (i : Nat) (hi : i < 16) (h : j ≠ i) : (flipByte j hj s)[i] = s[i] := by
  unfold flipByte
  rw [Vector.getElem_set_ne _ _ h]

theorem flipByte_self (j : Nat) (hj : j < 16) (s : State) : (flipByte j hj s)[j] = s[j] ^^^ 1#8 := by
  unfold flipByte
  rw [Vector.getElem_set_self]

theorem bit_flipByte (j : Nat) (hj : j < 16) (s : State) : (flipByte j hj s)[j].getLsbD 0 = !s[j].getLsbD 0 := by
  rw [flipByte_self, getLsbD_flip _ _ _ (by decide)]

theorem even_lower {F : State → State} (hF : Halves F) (hinj : Function.Injective F) : EvenMap (lower F) := by
  refine EvenMap.of_bit ?_ (flipByte 15 (by decide)) (fun s => s[15].getLsbD 0) (flipByte_flipByte _ _) ?_ ?_
    (bit_flipByte _ _)
  · intro s t h
    have hh : ∀ i (h : i < 16), 8 ≤ i → s[i] = t[i] := by
      intro i hi h8
      rw [← lower_high F s i hi h8, h, lower_high F t i hi h8]
    apply hinj
    apply Vector.ext
    intro i hi
    by_cases h8 : i < 8
    · rw [← lower_low F s i hi h8, h, lower_low F t i hi h8]
    · exact hF.high s t hh i hi (by omega)
  · intro s
    apply Vector.ext
    intro i hi
    by_cases h8 : i < 8
    · rw [lower_low F _ i hi h8, flipByte_ne _ _ _ _ _ (by omega), lower_low F _ i hi h8]
      exact hF.low _ _ (fun k hk hk8 => flipByte_ne _ _ _ _ _ (by omega)) i hi h8
    · rw [lower_high F _ i hi (by omega)]
      by_cases h15 : i = 15
      · subst h15
        rw [flipByte_self, flipByte_self, lower_high F _ 15 (by decide) (by decide)]
      · rw [flipByte_ne _ _ _ _ _ (by omega), flipByte_ne _ _ _ _ _ (by omega), lower_high F _ i hi (by omega)]
  · intro s
    rw [lower_high F s 15 (by decide) (by decide)]

theorem even_upper {F : State → State} (hF : Halves F) (hinj : Function.Injective F) : EvenMap (upper F) := by
  refine EvenMap.of_bit ?_ (flipByte 0 (by decide)) (fun s => s[0].getLsbD 0) (flipByte_flipByte _ _) ?_ ?_
    (bit_flipByte _ _)
  · intro s t h
    have hh : ∀ i (h : i < 16), i < 8 → s[i] = t[i] := by
      intro i hi h8
      rw [← upper_low F s i hi h8, h, upper_low F t i hi h8]
    apply hinj
    apply Vector.ext
    intro i hi
    by_cases h8 : i < 8
    · exact hF.low s t hh i hi h8
    · rw [← upper_high F s i hi (by omega), h, upper_high F t i hi (by omega)]
  · intro s
    apply Vector.ext
    intro i hi
    by_cases h8 : i < 8
    · rw [upper_low F _ i hi h8]
      by_cases h0 : i = 0
      · subst h0
        rw [flipByte_self, flipByte_self, upper_low F _ 0 (by decide) (by decide)]
      · rw [flipByte_ne _ _ _ _ _ (by omega), flipByte_ne _ _ _ _ _ (by omega), upper_low F _ i hi h8]
    · rw [upper_high F _ i hi (by omega), flipByte_ne _ _ _ _ _ (by omega), upper_high F _ i hi (by omega)]
      exact hF.high _ _ (fun k hk hk8 => flipByte_ne _ _ _ _ _ (by omega)) i hi (by omega)
  · intro s
    rw [upper_low F s 0 (by decide) (by decide)]

theorem even_halves {F : State → State} (hF : Halves F) (hinj : Function.Injective F) : EvenMap F := by
  refine ((even_upper hF hinj).comp (even_lower hF hinj)).same fun s => ?_
  apply Vector.ext
  intro i hi
  by_cases h8 : i < 8
  · rw [upper_low F _ i hi h8, lower_low F _ i hi h8]
  · rw [upper_high F _ i hi (by omega)]
    exact hF.high _ _ (fun k hk hk8 => (lower_high F s k hk hk8).symm) i hi (by omega)

theorem even_addKey (k : Vector U8 16) : EvenMap (addKey k) :=
  even_halves ⟨fun s t h i hi h8 => by simp [addKey, h i hi h8], fun s t h i hi h8 => by simp [addKey, h i hi h8]⟩
    (Function.LeftInverse.injective (addKey_addKey k))

theorem even_substitute : EvenMap substitute :=
  even_halves ⟨fun s t h i hi h8 => by simp [substitute, h i hi h8], fun s t h i hi h8 => by simp [substitute, h i hi h8]⟩
    (Function.LeftInverse.injective unsubstitute_substitute)

theorem mixColumns_vec (s : State) : mixColumns s =
    #v[mixByte s[0] s[1] s[2] s[3], mixByte s[1] s[2] s[3] s[0], mixByte s[2] s[3] s[0] s[1], mixByte s[3] s[0] s[1] s[2],
       mixByte s[4] s[5] s[6] s[7], mixByte s[5] s[6] s[7] s[4], mixByte s[6] s[7] s[4] s[5], mixByte s[7] s[4] s[5] s[6],
       mixByte s[8] s[9] s[10] s[11], mixByte s[9] s[10] s[11] s[8], mixByte s[10] s[11] s[8] s[9],
       mixByte s[11] s[8] s[9] s[10], mixByte s[12] s[13] s[14] s[15], mixByte s[13] s[14] s[15] s[12],
       mixByte s[14] s[15] s[12] s[13], mixByte s[15] s[12] s[13] s[14]] := by
  conv_lhs => rw [vec16 s]
  exact mixColumns_lit _ _ _ _ _ _ _ _ _ _ _ _ _ _ _ _

theorem even_mixColumns : EvenMap mixColumns := by
  refine even_halves ⟨fun s t h i hi h8 => ?_, fun s t h i hi h8 => ?_⟩
    (Function.LeftInverse.injective unmixColumns_mixColumns)
  · have h0 := h 0 (by decide) (by decide)
    have h1 := h 1 (by decide) (by decide)
    have h2 := h 2 (by decide) (by decide)
    have h3 := h 3 (by decide) (by decide)
    have h4 := h 4 (by decide) (by decide)
    have h5 := h 5 (by decide) (by decide)
    have h6 := h 6 (by decide) (by decide)
    have h7 := h 7 (by decide) (by decide)
    simp only [mixColumns_vec s, mixColumns_vec t, h0, h1, h2, h3, h4, h5, h6, h7]
    interval_cases i <;> rfl
  · have h0 := h 8 (by decide) (by decide)
    have h1 := h 9 (by decide) (by decide)
    have h2 := h 10 (by decide) (by decide)
    have h3 := h 11 (by decide) (by decide)
    have h4 := h 12 (by decide) (by decide)
    have h5 := h 13 (by decide) (by decide)
    have h6 := h 14 (by decide) (by decide)
    have h7 := h 15 (by decide) (by decide)
    simp only [mixColumns_vec s, mixColumns_vec t, h0, h1, h2, h3, h4, h5, h6, h7]
    interval_cases i <;> rfl

theorem shiftRows_vec (s : State) : shiftRows s =
    #v[s[0], s[5], s[10], s[15], s[4], s[9], s[14], s[3], s[8], s[13], s[2], s[7], s[12], s[1], s[6], s[11]] := by
  conv_lhs => rw [vec16 s]
  exact shiftRows_lit _ _ _ _ _ _ _ _ _ _ _ _ _ _ _ _

theorem even_shiftRows : EvenMap shiftRows := by
  refine EvenMap.of_bit (Function.LeftInverse.injective unshiftRows_shiftRows) (flipByte 0 (by decide))
    (fun s => s[0].getLsbD 0) (flipByte_flipByte _ _) ?_ ?_ (bit_flipByte _ _)
  · intro s
    rw [shiftRows_vec, shiftRows_vec]
    simp [flipByte]
  · intro s
    rw [shiftRows_vec]
    rfl

theorem even_encPure (K : Nat → Vector U8 16) (r : Nat) : EvenMap (encPure K r) := by
  have h : ∀ n, EvenMap (encRounds K n) := by
    intro n
    induction n with
    | zero => exact EvenMap.id
    | succ n ih =>
      exact ((even_addKey _).comp (even_mixColumns.comp (even_shiftRows.comp (even_substitute.comp ih))))
  exact (even_addKey _).comp (even_shiftRows.comp (even_substitute.comp ((h _).comp (even_addKey _))))

end aes

/-! ## RC2 -/

section rc2
open Verif.Model.Rc2

/-- Word `j` with its lowest bit changed. -/
def flipWord (j : Nat) (hj : j < 4) (d : Vector U16 4) : Vector U16 4 := d.set j (d[j] ^^^ 1#16)

theorem flipWord_flipWord (j : Nat) (hj : j < 4) (d : Vector U16 4) : flipWord j hj (flipWord j hj d) = d := by
  unfold flipWord
  rw [Vector.getElem_set_self, flip_flip, Vector.set_set, Vector.set_getElem_self]

theorem bit_flipWord (j : Nat) (hj : j < 4) (d : Vector U16 4) : (flipWord j hj d)[j].getLsbD 0 = !d[j].getLsbD 0 := by
  unfold flipWord
  rw [Vector.getElem_set_self, getLsbD_flip _ _ _ (by decide)]

/-- Changing word `i` in a way that does not depend on word `j`. -/
theorem even_word (i j : Nat) (hi : i < 4) (hj : j < 4) (hij : i ≠ j) (g : Vector U16 4 → U16)
    (hinj : Function.Injective fun d : Vector U16 4 => d.set i (g d)) (hg : ∀ d w, g (d.set j w) = g d) :
    EvenMap fun d : Vector U16 4 => d.set i (g d) := by
  refine EvenMap.of_bit hinj (flipWord j hj) (fun d => d[j].getLsbD 0) (flipWord_flipWord _ _) ?_ ?_ (bit_flipWord _ _)
  · intro d
    unfold flipWord
    rw [hg, Vector.getElem_set_ne _ _ hij, Vector.set_comm _ _ hij]
  · intro d
    rw [Vector.getElem_set_ne _ _ hij]

theorem even_add (i j : Nat) (hi : i < 4) (hj : j < 4) (hij : i ≠ j) (g : Vector U16 4 → U16)
    (hgi : ∀ d w, g (d.set i w) = g d) (hgj : ∀ d w, g (d.set j w) = g d) :
    EvenMap fun d : Vector U16 4 => d.set i (d[i] + g d) := by
  refine even_word i j hi hj hij _ (Function.LeftInverse.injective (g := fun d => d.set i (d[i] - g d)) ?_) ?_
  · intro d
    dsimp only
    rw [hgi, Vector.getElem_set_self, BitVec.add_sub_cancel, Vector.set_set, Vector.set_getElem_self]
  · intro d w
    rw [hgj, Vector.getElem_set_ne _ _ hij.symm]

theorem even_rot (i : Nat) (hi : i < 4) (k : Nat) : EvenMap fun d : Vector U16 4 => d.set i (d[i].rotateLeft k) := by
  obtain ⟨j, hj, hij⟩ : ∃ j, j < 4 ∧ i ≠ j := ⟨(i + 1) % 4, by omega, by omega⟩
  refine even_word i j hi hj hij _ (Function.LeftInverse.injective (g := fun d => d.set i (d[i].rotateRight k)) ?_) ?_
  · intro d
    dsimp only
    rw [Vector.getElem_set_self, rotR_rotL, Vector.set_set, Vector.set_getElem_self]
  · intro d w
    rw [Vector.getElem_set_ne _ _ hij.symm]

theorem even_mix1 (key : Vector U16 64) (base : Nat) (hb : base + 4 ≤ 64) (i : Nat) (hi : i < 4) :
    EvenMap (mix1 key base hb i hi) := by
  have h1 := even_add i ((i + 1) % 4) hi (by omega) (by omega) (fun _ => key[base + i]) (fun _ _ => rfl) (fun _ _ => rfl)
  have h2 := even_add i ((i + 1) % 4) hi (by omega) (by omega) (fun d => d4 d (i + 3) &&& d4 d (i + 2))
    (fun d w => by rw [d4_set hi _ (by omega), d4_set hi _ (by omega)])
    (fun d w => by rw [d4_set (by omega) _ (by omega), d4_set (by omega) _ (by omega)])
  have h3 := even_add i ((i + 2) % 4) hi (by omega) (by omega) (fun d => ~~~(d4 d (i + 3)) &&& d4 d (i + 1))
    (fun d w => by rw [d4_set hi _ (by omega), d4_set hi _ (by omega)])
    (fun d w => by rw [d4_set (by omega) _ (by omega), d4_set (by omega) _ (by omega)])
  refine ((even_rot i hi (rot i)).comp (h3.comp (h2.comp h1))).same fun d => ?_
  unfold mix1
  simp only [Vector.getElem_set_self, Vector.set_set, d4_set hi _ (show (i + 3) % 4 ≠ i by omega),
    d4_set hi _ (show (i + 2) % 4 ≠ i by omega), d4_set hi _ (show (i + 1) % 4 ≠ i by omega)]

theorem even_mash1 (key : Vector U16 64) (i : Nat) (hi : i < 4) : EvenMap (mash1 key i hi) :=
  even_add i ((i + 1) % 4) hi (by omega) (by omega) (fun d => keyAt key (d4 d (i + 3)))
    (fun d w => by rw [d4_set hi _ (by omega)]) (fun d w => by rw [d4_set (by omega) _ (by omega)])

theorem even_encryptBlock (k : RC2) : EvenMap (encryptBlock k) := by
  refine EvenMap.fold 16 _ fun i hi => ?_
  have h1 : EvenMap (mix k.key (4 * i) (by omega)) := EvenMap.fold 4 _ fun j hj => even_mix1 _ _ _ j hj
  have h2 : EvenMap (mash k.key) := EvenMap.fold 4 _ fun j hj => even_mash1 _ j hj
  by_cases h : i = 4 ∨ i = 10
  · simp only [h, if_true]
    exact h2.comp h1
  · simp only [h, if_false]
    exact h1

def splitEquiv : Vector U16 4 ≃ Vector U8 8 where
  toFun := join
  invFun := split
  left_inv := split_join
  right_inv := join_split

theorem even_rc2 (k : RC2) : EvenMap (encrypt k) := (even_encryptBlock k).conj splitEquiv

end rc2

/-! ## RC5 -/

section rc5
open Verif.Model.Rc5

/-- Changing the first word in a way that does not depend on some bit of the second. -/
theorem even_first (g : U32 → U32 → U32) (hinj : ∀ b, Function.Injective (g b)) (m : U32) (k : Nat)
    (hm : m.getLsbD k = true) (hg : ∀ b, g (b ^^^ m) = g b) : EvenMap fun ab : U32 × U32 => (g ab.2 ab.1, ab.2) := by
  refine EvenMap.of_bit ?_ (fun ab => (ab.1, ab.2 ^^^ m)) (fun ab => ab.2.getLsbD k) ?_ ?_ ?_ ?_
  · rintro ⟨a, b⟩ ⟨a', b'⟩ h
    simp only [Prod.mk.injEq] at h
    obtain ⟨h1, rfl⟩ := h
    rw [hinj _ h1]
  · rintro ⟨a, b⟩
    simp only [flip_flip]
  · rintro ⟨a, b⟩
    simp only [hg]
  · rintro ⟨a, b⟩
    rfl
  · rintro ⟨a, b⟩
    exact getLsbD_flip _ _ _ hm

theorem xor_and {w : Nat} (b m c : BitVec w) : (b ^^^ m) &&& c = (b &&& c) ^^^ (m &&& c) := by
  ext i hi
  simp only [BitVec.getElem_and, BitVec.getElem_xor, Bool.and_xor_distrib_right]

theorem xor_right_injective (c : U32) : Function.Injective fun a : U32 => a ^^^ c :=
  Function.LeftInverse.injective (g := fun a => a ^^^ c) fun a => flip_flip a c

theorem low_high (b : U32) : (b &&& 0xffff#32) ^^^ (b &&& 0xffff0000#32) = b := by
  have : (b &&& 0xffff#32) ^^^ (b &&& 0xffff0000#32) = b &&& (0xffff#32 ^^^ 0xffff0000#32) := by
    ext i hi
    simp only [BitVec.getElem_and, BitVec.getElem_xor, Bool.and_xor_distrib_left]
  rw [this, show (0xffff#32 ^^^ 0xffff0000#32 : U32) = BitVec.allOnes 32 by decide, BitVec.and_allOnes]

theorem even_half (c : U32) : EvenMap fun ab : U32 × U32 => ((ab.1 ^^^ ab.2).rotateLeft ab.2.toNat + c, ab.2) := by
  have h1 := even_first (fun b a => a ^^^ (b &&& 0xffff#32)) (fun b => xor_right_injective _) 0x80000000#32 31 (by decide)
    (fun b => by rw [xor_and, show (0x80000000#32 &&& 0xffff#32 : U32) = 0 by decide]; simp)
  have h2 := even_first (fun b a => a ^^^ (b &&& 0xffff0000#32)) (fun b => xor_right_injective _) 1#32 0 (by decide)
    (fun b => by rw [xor_and, show (1#32 &&& 0xffff0000#32 : U32) = 0 by decide]; simp)
  have h3 := even_first (fun b a => a.rotateLeft b.toNat)
    (fun b => Function.LeftInverse.injective (g := fun a => a.rotateRight b.toNat) fun a => rotR_rotL a _)
    0x80000000#32 31 (by decide) (fun b => by
      funext a
      rw [← rotateLeft_mod32, ← rotateLeft_mod32 a b.toNat]
      congr 1
      rw [BitVec.toNat_xor]
      have h := Nat.xor_mod_two_pow (a := b.toNat) (b := (0x80000000#32).toNat) (n := 5)
      exact h.trans (Nat.xor_zero _))
  have h4 := even_first (fun _ a => a + c)
    (fun b => Function.LeftInverse.injective (g := fun a => a - c) fun a => BitVec.add_sub_cancel a c)
    1#32 0 (by decide) (fun b => rfl)
  refine (h4.comp (h3.comp (h2.comp h1))).same ?_
  rintro ⟨a, b⟩
  simp only [BitVec.xor_assoc, low_high]

theorem even_swapped {f : U32 × U32 → U32 × U32} (h : EvenMap f) :
    EvenMap fun ab : U32 × U32 => (f ab.swap).swap := h.conj (Equiv.prodComm U32 U32)

theorem even_roundP (S : Nat → U32) (i : Nat) : EvenMap (roundP S i) :=
  ((even_swapped (even_half (S (2 * i + 1)))).comp (even_half (S (2 * i)))).same fun _ => rfl

theorem even_roundsP (S : Nat → U32) (n i : Nat) : EvenMap (roundsP S n i) := by
  induction n generalizing i with
  | zero => exact EvenMap.id
  | succ n ih => exact (ih (i + 1)).comp (even_roundP S i)

theorem even_encWords (S : Nat → U32) (n : Nat) : EvenMap fun ab : U32 × U32 => Spec.Rc5.encWords S ab.1 ab.2 n := by
  have h : ∀ c : U32, EvenMap fun ab : U32 × U32 => (ab.1 + c, ab.2) := fun c =>
    even_first (fun _ a => a + c)
      (fun b => Function.LeftInverse.injective (g := fun a => a - c) fun a => BitVec.add_sub_cancel a c)
      1#32 0 (by decide) (fun b => rfl)
  refine ((even_roundsP S n 1).comp ((even_swapped (h (S 1))).comp (h (S 0)))).same ?_
  rintro ⟨a, b⟩
  exact encWords_eq S a b n

def joinEquiv : U32 × U32 ≃ Vector U8 8 where
  toFun ab := joinBlock ab.1 ab.2
  invFun p := (leU32 p[0] p[1] p[2] p[3], leU32 p[4] p[5] p[6] p[7])
  left_inv ab := Prod.ext (leU32_joinBlock ab.1 ab.2).1 (leU32_joinBlock ab.1 ab.2).2
  right_inv := joinBlock_leU32

theorem even_rc5 {k : RC5} (h : Wf k) : ∃ f : Vector U8 8 → Vector U8 8, EvenMap f ∧ ∀ p, encrypt k p = .ok (f p) := by
  obtain ⟨S, hS⟩ := h
  refine ⟨_, (even_encWords S k.r.toNat).conj joinEquiv, fun p => ?_⟩
  simp only [encrypt, encrypt32_eq hS, bind, Except.bind]
  rfl

end rc5
end Verif.Parity
