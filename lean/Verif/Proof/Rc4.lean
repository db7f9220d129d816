import Verif.Model.Rc4
import Verif.Spec.Rc4
import Verif.Spec.Block
import Verif.Proof.Lib

namespace Verif.Model.Rc4
open Verif

/-- The byte table holds the same numbers as the specification's table. -/
def Same (t : Vector U8 256) (S : Nat → Nat) : Prop := ∀ i (h : i < 256), (t[i]).toNat = S i

theorem same_swap {t : Vector U8 256} {S : Nat → Nat} (h : Same t S) (a b : Nat) (ha : a < 256) (hb : b < 256) :
    Same (t.swap a b ha hb) (Spec.Rc4.swap S a b) := by
  intro i hi
  unfold Spec.Rc4.swap
  rw [Vector.getElem_swap]
  by_cases h1 : i = a
  · subst h1; simp [h b hb]
  · by_cases h2 : i = b
    · subst h2; simp [h1, h a ha]
    · simp [h1, h2, h i hi]

theorem same_at8 {t : Vector U8 256} {S : Nat → Nat} (h : Same t S) (b : U8) : (at8 t b).toNat = S b.toNat :=
  h _ _

/-- The key schedule after `n` steps. -/
def ksaN (key : List U8) (hk : 0 < key.length) (n : Nat) (hn : n ≤ 256) : Vector U8 256 × U8 :=
  Nat.fold n (fun i hi s => ksaStep key hk i (by omega) s)
    (Vector.ofFn fun i => BitVec.ofNat 8 i.val, 0#8)

theorem ksaN_spec (key : List U8) (hk : 0 < key.length) (n : Nat) (hn : n ≤ 256) :
    Same (ksaN key hk n hn).1 (Spec.Rc4.ksa (key.map BitVec.toNat) n).1 ∧
    (ksaN key hk n hn).2.toNat = (Spec.Rc4.ksa (key.map BitVec.toNat) n).2 := by
  induction n with
  | zero =>
    constructor
    · intro i hi
      simp [ksaN, Spec.Rc4.ksa]
    · rfl
  | succ n ih =>
    obtain ⟨h1, h2⟩ := ih (by omega)
    have hstep : ksaN key hk (n + 1) hn = ksaStep key hk n (by omega) (ksaN key hk n (by omega)) := by
      simp [ksaN, Nat.fold_succ]
    rw [hstep]
    have hlt : n % key.length < key.length := Nat.mod_lt _ hk
    have hj : (key[n % key.length] + (ksaN key hk n (by omega)).1[n] + (ksaN key hk n (by omega)).2).toNat =
        ((Spec.Rc4.ksa (key.map BitVec.toNat) n).2 + (Spec.Rc4.ksa (key.map BitVec.toNat) n).1 n +
          (key.map BitVec.toNat).getD (n % (key.map BitVec.toNat).length) 0) % 256 := by
      rw [BitVec.toNat_add, BitVec.toNat_add, h1 n (by omega), h2]
      simp only [List.length_map, List.getD_eq_getElem?_getD, List.getElem?_map,
        List.getElem?_eq_getElem hlt, Option.map_some, Option.getD_some]
      omega
    constructor
    · simp only [ksaStep, Spec.Rc4.ksa]
      rw [← hj]
      exact same_swap h1 _ _ _ _
    · simp only [ksaStep, Spec.Rc4.ksa]
      exact hj

theorem new_ok (key : List U8) (hk : 0 < key.length) :
    new key = .ok ⟨(ksaN key hk 256 (by omega)).1, 0#8, 0#8⟩ := by
  rw [new, dif_pos hk]; rfl

/-- The generator state agrees with the specification's. -/
def SameSt (k : KeyStream) (s : Spec.Rc4.St) : Prop :=
  Same k.state s.S ∧ k.x.toNat = s.i ∧ k.y.toNat = s.j

theorem nextKey_spec {k : KeyStream} {key : List Nat} {n : Nat} (h : SameSt k (Spec.Rc4.after key n)) :
    (nextKey k).1.toNat = Spec.Rc4.stream key n ∧
    SameSt (nextKey k).2 (Spec.Rc4.after key (n + 1)) := by
  obtain ⟨h1, h2, h3⟩ := h
  have hx : (k.x + 1#8).toNat = ((Spec.Rc4.after key n).i + 1) % 256 := by
    rw [BitVec.toNat_add, h2]; rfl
  have hy : (at8 k.state (k.x + 1#8) + k.y).toNat =
      ((Spec.Rc4.after key n).j + (Spec.Rc4.after key n).S (((Spec.Rc4.after key n).i + 1) % 256)) % 256 := by
    rw [BitVec.toNat_add, same_at8 h1, h3, hx]
    omega
  have hs : SameSt (nextKey k).2 (Spec.Rc4.after key (n + 1)) := by
    refine ⟨?_, hx, hy⟩
    simp only [nextKey, Spec.Rc4.after]
    rw [← hy, ← hx]
    exact same_swap h1 _ _ _ _
  refine ⟨?_, hs⟩
  obtain ⟨g1, g2, g3⟩ := hs
  unfold Spec.Rc4.stream
  have e : (nextKey k).1 = at8 (nextKey k).2.state
      (at8 (nextKey k).2.state (nextKey k).2.x + at8 (nextKey k).2.state (nextKey k).2.y) := rfl
  rw [e, same_at8 g1, BitVec.toNat_add, same_at8 g1, same_at8 g1, g2, g3]

/-- The table is a permutation of all bytes. -/
def IsPerm (t : Vector U8 256) : Prop :=
  t.toList.Perm ((List.range 256).map (BitVec.ofNat 8))

theorem isPerm_swap {t : Vector U8 256} (h : IsPerm t) (a b : Nat) (ha : a < 256) (hb : b < 256) :
    IsPerm (t.swap a b ha hb) := by
  refine List.Perm.trans ?_ h
  exact Vector.perm_iff_toList_perm.1 (Vector.swap_perm ha hb)

theorem ksaN_perm (key : List U8) (hk : 0 < key.length) (n : Nat) (hn : n ≤ 256) :
    IsPerm (ksaN key hk n hn).1 := by
  induction n with
  | zero =>
    have : (ksaN key hk 0 hn).1.toList = (List.range 256).map (BitVec.ofNat 8) := by
      apply List.ext_getElem
      · simp
      · intro i h1 h2
        have : i < 256 := by simpa using h2
        apply BitVec.eq_of_toNat_eq
        simp [ksaN]; omega
    rw [IsPerm, this]
  | succ n ih =>
    have hstep : ksaN key hk (n + 1) hn = ksaStep key hk n (by omega) (ksaN key hk n (by omega)) := by
      simp [ksaN, Nat.fold_succ]
    rw [hstep]
    exact isPerm_swap (ih (by omega)) _ _ (by omega) (BitVec.isLt _)

theorem keys_snoc {σ : Type} {next : KeyIter σ} {s s1 s2 : σ} {ks : List U8} {k : U8}
    (h : Spec.Keys next s ks s1) (h2 : next s1 = (some k, s2)) : Spec.Keys next s (ks ++ [k]) s2 := by
  induction h with
  | nil => exact .cons h2 (.nil _)
  | cons h _ ih => exact .cons h (ih h2)

theorem stream_keys (key : List U8) (hk : 0 < key.length) (n : Nat) :
    ∃ s', Spec.Keys next ⟨(ksaN key hk 256 (by omega)).1, 0#8, 0#8⟩
        ((List.range n).map fun i => BitVec.ofNat 8 (Spec.Rc4.stream (key.map BitVec.toNat) i)) s' ∧
      SameSt s' (Spec.Rc4.after (key.map BitVec.toNat) n) ∧ IsPerm s'.state := by
  induction n with
  | zero =>
    refine ⟨_, .nil _, ⟨?_, ?_, ?_⟩, ksaN_perm key hk 256 (by omega)⟩
    · simp only [Spec.Rc4.after]; exact (ksaN_spec key hk 256 (by omega)).1
    · simp only [Spec.Rc4.after]; rfl
    · simp only [Spec.Rc4.after]; rfl
  | succ n ih =>
    obtain ⟨s', h1, h2, h3⟩ := ih
    obtain ⟨g1, g2⟩ := nextKey_spec h2
    refine ⟨(nextKey s').2, ?_, g2, isPerm_swap h3 _ _ (BitVec.isLt _) (BitVec.isLt _)⟩
    rw [List.range_succ, List.map_append]
    apply keys_snoc h1
    have : (nextKey s').1 = BitVec.ofNat 8 (Spec.Rc4.stream (key.map BitVec.toNat) n) := by
      rw [← g1]; simp
    simp [next, this]

theorem encrypt_eq (k : KeyStream) (m : List U8) :
    ∃ ct, encrypt k m = .ok ct ∧ ct.length = m.length ∧ encrypt k ct = .ok m := by
  have hres : ∀ (k : KeyStream) (m : List U8), (streamEncrypt next k m).result = .ok () ∧
      (streamEncrypt next k m).yielded.length = m.length := by
    intro k m
    induction m generalizing k with
    | nil => exact ⟨rfl, rfl⟩
    | cons d ds ih => simp [streamEncrypt, next, ih]
  have hinv : ∀ (k : KeyStream) (m : List U8),
      (streamEncrypt next k (streamEncrypt next k m).yielded).yielded = m := by
    intro k m
    induction m generalizing k with
    | nil => rfl
    | cons d ds ih =>
      simp only [streamEncrypt, next, ih, List.cons.injEq, and_true]
      rw [← BitVec.xor_assoc, BitVec.xor_self, BitVec.zero_xor]
  refine ⟨(streamEncrypt next k m).yielded, ?_, (hres k m).2, ?_⟩
  · simp [encrypt, (hres k m).1]
  · simp [encrypt, (hres k _).1, hinv]

theorem ksaN_congr (k1 k2 : List U8) (h1 : 0 < k1.length) (h2 : 0 < k2.length)
    (h : ∀ i < 256, k1[i % k1.length]? = k2[i % k2.length]?) (n : Nat) (hn : n ≤ 256) :
    ksaN k1 h1 n hn = ksaN k2 h2 n hn := by
  induction n with
  | zero => rfl
  | succ n ih =>
    have e1 : ksaN k1 h1 (n + 1) hn = ksaStep k1 h1 n (by omega) (ksaN k1 h1 n (by omega)) := by
      simp [ksaN, Nat.fold_succ]
    have e2 : ksaN k2 h2 (n + 1) hn = ksaStep k2 h2 n (by omega) (ksaN k2 h2 n (by omega)) := by
      simp [ksaN, Nat.fold_succ]
    have hk := h n (by omega)
    rw [List.getElem?_eq_getElem (Nat.mod_lt _ h1), List.getElem?_eq_getElem (Nat.mod_lt _ h2)] at hk
    simp only [Option.some.injEq] at hk
    rw [e1, e2, ih (by omega)]
    simp only [ksaStep, hk]

end Verif.Model.Rc4
