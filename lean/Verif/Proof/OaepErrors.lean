import Verif.Proof.Oaep
import Verif.Model.Text
import Verif.Spec.OaepErrors

/-! # OAEP encodings that are rejected -/

namespace Verif.Model.Oaep
open Verif Verif.Spec.Oaep

/-- The message instead of the error. -/
def said (r : Except DecodeError (List U8)) : Except (List Char) (List U8) := r.mapError Text.oaepError

theorem verdict_of_db (lh db : List U8) : Verdict lh db (said (parseDb lh db)) := by
  unfold parseDb
  by_cases h1 : db.take lh.length ≠ lh
  · rw [if_pos h1]
    refine .wrongLabel db fun hp => h1 ?_
    obtain ⟨t, rfl⟩ := hp
    simp
  · rw [if_neg h1]
    rw [not_not] at h1
    have h0 := List.takeWhile_append_dropWhile (p := (· = 0#8)) (l := db.drop lh.length)
    have h3 : (db.drop lh.length).takeWhile (· = 0#8) =
        List.replicate ((db.drop lh.length).takeWhile (· = 0#8)).length 0#8 := by
      apply List.eq_replicate_of_mem
      intro b hb
      simpa using List.mem_takeWhile_imp hb
    have h4 : db = lh ++ db.drop lh.length := by
      conv => lhs; rw [← List.take_append_drop lh.length db, h1]
    rcases hd : (db.drop lh.length).dropWhile (· = 0#8) with _ | ⟨b, m⟩
    · rw [hd, List.append_nil, h3] at h0
      rw [← h0] at h4
      have := Verdict.missing (labelHash := lh) ((db.drop lh.length).takeWhile (· = 0#8)).length
      rw [← h4] at this
      exact this
    · have hb : b ≠ 0#8 := by
        have := List.head?_dropWhile_not (· = 0#8) (db.drop lh.length)
        rw [hd] at this
        simpa using this
      rw [hd, h3] at h0
      rw [← h0, ← List.append_assoc] at h4
      by_cases h5 : b = 1#8
      · subst h5
        have := Verdict.message (labelHash := lh) ((db.drop lh.length).takeWhile (· = 0#8)).length m
        rw [← h4] at this
        exact this
      · have := Verdict.notOne (labelHash := lh) ((db.drop lh.length).takeWhile (· = 0#8)).length b m hb h5
        rw [← h4] at this
        simp only [if_neg h5]
        exact this

theorem zeros_unique {i j : Nat} {b c : U8} {m m' : List U8} (hb : b ≠ 0#8) (hc : c ≠ 0#8)
    (h : List.replicate i 0#8 ++ b :: m = List.replicate j 0#8 ++ c :: m') : b = c ∧ m = m' := by
  have h1 := dropWhile_zeros i b m hb
  rw [h, dropWhile_zeros j c m' hc] at h1
  simpa [eq_comm] using h1

theorem zeros_end {i j : Nat} {b : U8} {m : List U8} (hb : b ≠ 0#8) :
    List.replicate i 0#8 ++ b :: m ≠ List.replicate j 0#8 := by
  intro h
  have : b ∈ List.replicate j 0#8 := by rw [← h]; simp
  exact hb (List.eq_of_mem_replicate this)

theorem verdict_unique {lh db : List U8} {r r' : Except (List Char) (List U8)} (h : Verdict lh db r)
    (h' : Verdict lh db r') : r = r' := by
  have one : (1#8 : U8) ≠ 0#8 := by decide
  generalize hd : db = d at h'
  cases h with
  | message z m =>
    cases h' with
    | message z' m' =>
      simp only [List.append_assoc, List.append_cancel_left_eq] at hd
      rw [(zeros_unique one one hd).2]
    | wrongLabel _ h => rw [← hd] at h; exact absurd ⟨_, (List.append_assoc _ _ _).symm⟩ h
    | missing z' =>
      simp only [List.append_assoc, List.append_cancel_left_eq] at hd
      exact absurd hd (zeros_end one)
    | notOne z' b m' h1 h2 =>
      simp only [List.append_assoc, List.append_cancel_left_eq] at hd
      exact absurd (zeros_unique one h1 hd).1.symm h2
  | wrongLabel _ h =>
    cases h' with
    | wrongLabel _ _ => rfl
    | _ => subst hd; simp at h
  | missing z =>
    cases h' with
    | message z' m' =>
      simp only [List.append_assoc, List.append_cancel_left_eq] at hd
      exact absurd hd.symm (zeros_end one)
    | wrongLabel _ h => subst hd; simp at h
    | missing z' => rfl
    | notOne z' b m' h1 h2 =>
      simp only [List.append_assoc, List.append_cancel_left_eq] at hd
      exact absurd hd.symm (zeros_end h1)
  | notOne z b m h1 h2 =>
    cases h' with
    | message z' m' =>
      simp only [List.append_assoc, List.append_cancel_left_eq] at hd
      exact absurd (zeros_unique h1 one hd).1 h2
    | wrongLabel _ h => rw [← hd] at h; exact absurd ⟨_, (List.append_assoc _ _ _).symm⟩ h
    | missing z' =>
      simp only [List.append_assoc, List.append_cancel_left_eq] at hd
      exact absurd hd (zeros_end h1)
    | notOne z' c m' _ _ => rfl

variable {N : Nat} {h : List U8 → Vector U8 N}

theorem unmask_mask (hN : 0 < N) (seed db : List U8) (hs : seed.length = N) :
    ∃ ms mdb, mask h seed db = 0#8 :: ms ++ mdb ∧ ms.length = N ∧ mdb.length = db.length ∧ unmask h ms mdb = db := by
  have h1 : (Spec.Oaep.xor db (Spec.Oaep.mgf1 h seed db.length)).length = db.length :=
    length_xor _ _ (by rw [length_mgf1 hN])
  have h2 : (Spec.Oaep.xor seed (Spec.Oaep.mgf1 h (Spec.Oaep.xor db (Spec.Oaep.mgf1 h seed db.length)) N)).length = N := by
    rw [length_xor _ _ (by rw [length_mgf1 hN, hs]), hs]
  refine ⟨_, _, rfl, h2, h1, ?_⟩
  unfold unmask
  rw [xor_xor _ _ (by rw [length_mgf1 hN, hs]), h1, xor_xor _ _ (by rw [length_mgf1 hN])]

theorem mask_unmask (hN : 0 < N) (ms mdb : List U8) (hms : ms.length = N) :
    mask h (Spec.Oaep.xor ms (Spec.Oaep.mgf1 h mdb N)) (unmask h ms mdb) = 0#8 :: ms ++ mdb := by
  have hl : (unmask h ms mdb).length = mdb.length := by
    unfold unmask
    exact length_xor _ _ (by rw [length_mgf1 hN])
  unfold mask
  simp only
  rw [hl]
  have : Spec.Oaep.xor (unmask h ms mdb) (Spec.Oaep.mgf1 h (Spec.Oaep.xor ms (Spec.Oaep.mgf1 h mdb N)) mdb.length) = mdb := by
    unfold unmask
    exact xor_xor _ _ (by rw [length_mgf1 hN])
  rw [this, xor_xor _ _ (by rw [length_mgf1 hN, hms])]

theorem mask_inj (hN : 0 < N) {seed db ms mdb : List U8} (hs : seed.length = N) (e : mask h seed db = 0#8 :: ms ++ mdb)
    (hms : ms.length = N) : seed = Spec.Oaep.xor ms (Spec.Oaep.mgf1 h mdb N) ∧ db = unmask h ms mdb := by
  have h1 : (Spec.Oaep.xor db (Spec.Oaep.mgf1 h seed db.length)).length = db.length :=
    length_xor _ _ (by rw [length_mgf1 hN])
  have h2 : (Spec.Oaep.xor seed (Spec.Oaep.mgf1 h (Spec.Oaep.xor db (Spec.Oaep.mgf1 h seed db.length)) N)).length = N := by
    rw [length_xor _ _ (by rw [length_mgf1 hN, hs]), hs]
  unfold mask at e
  simp only [List.cons_append, List.cons.injEq, true_and] at e
  obtain ⟨e1, e2⟩ := List.append_inj e (by rw [h2, hms])
  subst e2
  have h3 : seed = Spec.Oaep.xor ms (Spec.Oaep.mgf1 h (Spec.Oaep.xor db (Spec.Oaep.mgf1 h seed db.length)) N) := by
    rw [← e1, xor_xor _ _ (by rw [length_mgf1 hN, hs])]
  refine ⟨h3, ?_⟩
  unfold unmask
  rw [← h3, h1, xor_xor _ _ (by rw [length_mgf1 hN])]

end Verif.Model.Oaep
