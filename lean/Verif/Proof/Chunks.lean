import Verif.Basic

/-! # Lemmas about `chunks_exact` -/

namespace Verif

theorem length_flatMap_toList {α : Type} {n : Nat} (bs : List (Vector α n)) :
    (bs.flatMap Vector.toList).length = bs.length * n := by
  induction bs with
  | nil => simp
  | cons b bs ih => simp [ih, Nat.add_mul, Nat.add_comm]

theorem getElem_flatMap_toList {α : Type} {n : Nat} (bs : List (Vector α n)) (tail : List α)
    (i j : Nat) (hi : i < bs.length) (hj : j < n)
    (h : i * n + j < (bs.flatMap Vector.toList ++ tail).length) :
    (bs.flatMap Vector.toList ++ tail)[i * n + j] = bs[i][j] := by
  induction bs generalizing i with
  | nil => simp at hi
  | cons b bs ih =>
    cases i with
    | zero =>
      simp [List.getElem_append_left, hj]
    | succ i =>
      have e : (i + 1) * n + j = n + (i * n + j) := by rw [Nat.add_mul]; omega
      have hi' : i < bs.length := by simpa using hi
      have hlen : i * n + j < (bs.flatMap Vector.toList ++ tail).length := by
        rw [List.length_append, length_flatMap_toList]
        have : (i + 1) * n ≤ bs.length * n := Nat.mul_le_mul_right n hi'
        rw [Nat.add_mul] at this
        omega
      have := ih i hi' hlen
      simp only [List.flatMap_cons, List.append_assoc, List.getElem_cons_succ]
      rw [List.getElem_append_right (by simp [e])]
      rw [← this]
      congr 1
      simp [e]

theorem chunksExact_eq {α : Type} {n : Nat} (bs : List (Vector α n)) (tail : List α)
    (ht : tail.length < n) : chunksExact n (bs.flatMap Vector.toList ++ tail) = bs := by
  have hn : 0 < n := by omega
  have hl : (bs.flatMap Vector.toList ++ tail).length / n = bs.length := by
    rw [List.length_append, length_flatMap_toList]
    rw [Nat.mul_comm, Nat.mul_add_div hn, Nat.div_eq_of_lt ht]; rfl
  apply List.ext_getElem
  · simp only [chunksExact, List.length_ofFn, hl]
  · intro i h1 h2
    simp only [chunksExact, List.getElem_ofFn]
    apply Vector.ext
    intro j hj
    simp only [Vector.getElem_ofFn]
    exact getElem_flatMap_toList bs tail i j h2 hj _

theorem chunksRem_eq {α : Type} {n : Nat} (bs : List (Vector α n)) (tail : List α)
    (ht : tail.length < n) : chunksRem n (bs.flatMap Vector.toList ++ tail) = tail := by
  have hn : 0 < n := by omega
  have hl : (bs.flatMap Vector.toList ++ tail).length / n = bs.length := by
    rw [List.length_append, length_flatMap_toList]
    rw [Nat.mul_comm, Nat.mul_add_div hn, Nat.div_eq_of_lt ht]; rfl
  unfold chunksRem
  rw [hl, ← length_flatMap_toList bs, List.drop_left]

/-- Every list is a sequence of full blocks followed by less than a block. -/
theorem exists_chunks {α : Type} {n : Nat} (hn : 0 < n) (l : List α) :
    ∃ (bs : List (Vector α n)) (tail : List α), l = bs.flatMap Vector.toList ++ tail ∧
      tail.length = l.length % n ∧ bs.length = l.length / n := by
  induction hl : l.length using Nat.strongRecOn generalizing l with
  | _ m ih =>
    by_cases h : l.length < n
    · exact ⟨[], l, by simp, by rw [← hl, Nat.mod_eq_of_lt h], by simp [← hl, Nat.div_eq_of_lt h]⟩
    · have h' : n ≤ l.length := by omega
      obtain ⟨bs, tail, e, ht, hb⟩ := ih (l.length - n) (by omega) (l.drop n) (by simp)
      have hm : m = (l.length - n) + n := by omega
      refine ⟨⟨(l.take n).toArray, by simp [h']⟩ :: bs, tail, ?_, ?_, ?_⟩
      · simp only [List.flatMap_cons, List.append_assoc, ← e]
        show l = l.take n ++ l.drop n
        simp
      · rw [ht, hm, Nat.add_mod_right]
      · rw [List.length_cons, hb, hm, Nat.add_div_right _ hn]

end Verif
