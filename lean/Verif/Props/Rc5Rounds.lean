import Verif.Props.Rc5

/-! # C124: RC5 with no rounds

`RC5::new` accepts any number of rounds, 0 included. -/

namespace Verif.Props
open Verif Model Spec

/-- The two little-endian 32-bit words of a block. -/
def words (b : Vector U8 8) : U32 × U32 := (Spec.Rc5.word b[0] b[1] b[2] b[3], Spec.Rc5.word b[4] b[5] b[6] b[7])

theorem words_of_bytes (A B : U32) (c : Vector U8 8) (h : c.toList = Spec.Rc5.bytes A B) : words c = (A, B) := by
  have hi : ∀ i (hi : i < 8), c[i] = (Spec.Rc5.bytes A B)[i]'(by rw [← h]; simpa using hi) := by
    intro i hi
    simp [← h]
  have hA := A.isLt
  have hB := B.isLt
  unfold words Spec.Rc5.word
  simp only [hi, Spec.Rc5.bytes, natToLE, List.cons_append, List.nil_append, List.getElem_cons_zero,
    List.getElem_cons_succ, BitVec.toNat_ofNat]
  refine Prod.ext (BitVec.eq_of_toNat_eq ?_) (BitVec.eq_of_toNat_eq ?_) <;>
  · simp only [BitVec.toNat_ofNat]
    omega

theorem words_injective (x y : Vector U8 8) (h : words x = words y) : x = y := by
  have hw : ∀ a b c d a' b' c' d' : U8, Spec.Rc5.word a b c d = Spec.Rc5.word a' b' c' d' →
      a = a' ∧ b = b' ∧ c = c' ∧ d = d' := by
    intro a b c d a' b' c' d' h
    have := congrArg BitVec.toNat h
    simp only [Spec.Rc5.word, BitVec.toNat_ofNat] at this
    have := a.isLt; have := b.isLt; have := c.isLt; have := d.isLt
    have := a'.isLt; have := b'.isLt; have := c'.isLt; have := d'.isLt
    refine ⟨BitVec.eq_of_toNat_eq ?_, BitVec.eq_of_toNat_eq ?_, BitVec.eq_of_toNat_eq ?_, BitVec.eq_of_toNat_eq ?_⟩ <;> omega
  obtain ⟨h0, h1, h2, h3⟩ := hw _ _ _ _ _ _ _ _ (congrArg Prod.fst h)
  obtain ⟨h4, h5, h6, h7⟩ := hw _ _ _ _ _ _ _ _ (congrArg Prod.snd h)
  apply Vector.ext
  intro i hi
  have : i = 0 ∨ i = 1 ∨ i = 2 ∨ i = 3 ∨ i = 4 ∨ i = 5 ∨ i = 6 ∨ i = 7 := by omega
  rcases this with rfl | rfl | rfl | rfl | rfl | rfl | rfl | rfl <;> assumption

/-- C124: with 0 rounds encryption adds two constants to the two words of the block. -/
theorem C124_adds (key : List U8) (h1 : 1 ≤ key.length) (h2 : key.length ≤ 255) :
    ∃ k, Rc5.new key 0#8 = .ok k ∧ ∃ s : U32 × U32, ∀ x : Vector U8 8, ∃ c, Rc5.encrypt k x = .ok c ∧
      words c = ((words x).1 + s.1, (words x).2 + s.2) := by
  obtain ⟨k, hk, h⟩ := C16_rc5_spec key h1 h2 0#8
  refine ⟨k, hk, (Spec.Rc5.table key 0 0, Spec.Rc5.table key 0 1), fun x => ?_⟩
  obtain ⟨c, hc, hl⟩ := h x
  exact ⟨c, hc, words_of_bytes _ _ c hl⟩

/-- C124: so one plaintext block `x` with its ciphertext `cx` tells, without the key, the plaintext `y` of every other
ciphertext block `cy`. -/
theorem C124_known_plaintext (key : List U8) (k : Rc5.RC5) (hk : Rc5.new key 0#8 = .ok k) (x y cx cy : Vector U8 8)
    (hx : Rc5.encrypt k x = .ok cx) :
    Rc5.encrypt k y = .ok cy ↔
      words y = ((words cy).1 - (words cx).1 + (words x).1, (words cy).2 - (words cx).2 + (words x).2) := by
  obtain ⟨h1, h2⟩ := (C15_rc5_domain key 0#8).1 ⟨k, hk⟩
  obtain ⟨k', hk', s, h⟩ := C124_adds key h1 h2
  rw [hk] at hk'
  cases hk'
  obtain ⟨c, e1, e2⟩ := h x
  rw [hx] at e1
  cases e1
  obtain ⟨c', f1, f2⟩ := h y
  have hadd : ∀ a b s t : U32, b = t - (a + s) + a ↔ b + s = t := by
    intro a b s t
    have h1 := a.isLt; have h2 := b.isLt; have h3 := s.isLt; have h4 := t.isLt
    constructor
    · intro h
      have := congrArg BitVec.toNat h
      simp only [BitVec.toNat_add, BitVec.toNat_sub] at this
      apply BitVec.eq_of_toNat_eq
      rw [BitVec.toNat_add]
      omega
    · rintro rfl
      apply BitVec.eq_of_toNat_eq
      simp only [BitVec.toNat_add, BitVec.toNat_sub]
      omega
  rw [f1, e2, Prod.ext_iff, hadd, hadd]
  constructor
  · intro hc
    cases hc
    rw [f2]
    exact ⟨rfl, rfl⟩
  · rintro ⟨g1, g2⟩
    rw [words_injective c' cy (f2.trans (Prod.ext g1 g2))]

/-- A key with 0 rounds, and a block under it. -/
example : (do let k ← Rc5.new [1, 2, 3] 0#8; Rc5.encrypt32 k 0 0) = (do
    let k ← Rc5.new [1, 2, 3] 0#8
    let (a, b) ← Rc5.encrypt32 k 5 7
    return (a - 5, b - 7)) := by decide +kernel

end Verif.Props
