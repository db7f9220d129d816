import Verif.Model.Pad
import Verif.Spec.Block
import Verif.Proof.Chunks

namespace Verif.Model.Pad
open Verif

theorem pkcsPad_ok {N : Nat} {p : List U8} (h : p.length < N) :
    ∃ v, pkcsPad N p = .ok v ∧ v.toList = Spec.pkcs7 N p := by
  refine ⟨_, by rw [pkcsPad, if_neg (by omega)], ?_⟩
  apply List.ext_getElem
  · simp [Spec.pkcs7]; omega
  · intro i h1 h2
    simp only [Vector.getElem_toList, Vector.getElem_ofFn, Spec.pkcs7]
    by_cases hi : i < p.length
    · simp [hi, List.getElem_append_left]
    · simp [hi, List.getElem_append_right (Nat.le_of_not_lt hi)]

theorem pkcsPad_error {N : Nat} {p : List U8} (h : N ≤ p.length) : pkcsPad N p = .error .explicit := by
  rw [pkcsPad, if_pos h]

theorem pkcs7_length {N : Nat} {p : List U8} (h : p.length ≤ N) : (Spec.pkcs7 N p).length = N := by
  simp [Spec.pkcs7]; omega

theorem pkcs7_last {N : Nat} {p : List U8} (h : p.length < N) :
    (Spec.pkcs7 N p)[N - 1]? = some (BitVec.ofNat 8 (N - p.length)) := by
  unfold Spec.pkcs7
  rw [List.getElem?_append_right (by omega), List.getElem?_replicate, if_pos (by omega)]

theorem last_of_toList {N : Nat} (v : Vector U8 N) (l : List U8) (e : v.toList = l) (hN : 0 < N)
    {x : U8} (h : l[N - 1]? = some x) : v[N - 1] = x := by
  subst e
  rw [List.getElem?_eq_getElem (by simp; omega)] at h
  simpa using h

theorem pkcsUnpad_of_last {N : Nat} (hN : 0 < N) (v : Vector U8 N) :
    pkcsUnpad N v = if N < (v[N - 1]).toNat then .error .explicit else .ok (N - (v[N - 1]).toNat) := by
  rw [pkcsUnpad, dif_pos hN]

theorem rposition_none {α : Type} (p : α → Bool) (l : List α) :
    rposition p l = none ↔ ∀ x ∈ l, p x = false := by
  induction l with
  | nil => simp [rposition]
  | cons a l ih =>
    simp only [rposition]
    split
    · rename_i i hi
      simp only [reduceCtorEq, false_iff]
      intro h
      have : rposition p l = none := ih.2 (fun x hx => h x (List.mem_cons_of_mem _ hx))
      rw [this] at hi; cases hi
    · rename_i hn
      have := ih.1 hn
      by_cases hp : p a
      · simp [hp]
      · simpa [hp] using this

theorem rposition_some {α : Type} (p : α → Bool) (l : List α) (i : Nat) :
    rposition p l = some i ↔
      ∃ pre x post, l = pre ++ x :: post ∧ pre.length = i ∧ p x = true ∧ ∀ y ∈ post, p y = false := by
  induction l generalizing i with
  | nil => simp [rposition]
  | cons a l ih =>
    simp only [rposition]
    split
    · rename_i j hj
      obtain ⟨pre, x, post, e, hl, hx, hp⟩ := (ih j).1 hj
      constructor
      · intro h
        cases h
        exact ⟨a :: pre, x, post, by simp [e], by simp [hl], hx, hp⟩
      · rintro ⟨pre', x', post', e', hl', hx', hp'⟩
        cases pre' with
        | nil =>
          simp only [List.nil_append, List.cons.injEq] at e'
          obtain ⟨rfl, rfl⟩ := e'
          have hnone := (rposition_none p l).2 hp'
          rw [hnone] at hj; cases hj
        | cons a' pre' =>
          simp only [List.cons_append, List.cons.injEq] at e'
          obtain ⟨rfl, e'⟩ := e'
          have := (ih pre'.length).2 ⟨pre', x', post', e', rfl, hx', hp'⟩
          rw [this] at hj
          cases hj
          simp at hl'
          simp [hl']
    · rename_i hn
      have hall := (rposition_none p l).1 hn
      constructor
      · intro h
        by_cases hp : p a
        · simp [hp] at h
          exact ⟨[], a, l, rfl, by simp [h], hp, hall⟩
        · simp [hp] at h
      · rintro ⟨pre', x', post', e', hl', hx', hp'⟩
        cases pre' with
        | nil =>
          simp only [List.nil_append, List.cons.injEq] at e'
          obtain ⟨rfl, rfl⟩ := e'
          simp at hl'
          simp [hx', ← hl']
        | cons a' pre' =>
          simp only [List.cons_append, List.cons.injEq] at e'
          obtain ⟨rfl, e'⟩ := e'
          have := hall x' (by rw [e']; simp)
          rw [hx'] at this; cases this

end Verif.Model.Pad
