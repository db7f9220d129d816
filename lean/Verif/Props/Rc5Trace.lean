import Verif.Proof.Rc5Leak
import Verif.Props.Rc5
import Mathlib.Tactic.Choose

/-! # C145: what the amounts of the rotations of RC5 reveal -/

namespace Verif.Props
open Verif Model Spec
open _root_.Verif.Model.Rc5Trace (decRoundsT decryptT)
open _root_.Verif.Spec.Rc5Leak (attack)

theorem decRoundsT_fst (s : List U32) (n : Nat) (ab : U32 × U32) :
    (decRoundsT s n ab).map Prod.fst = Rc5.decRounds s n ab := by
  induction n generalizing ab with
  | zero => rfl
  | succ n ih =>
    obtain ⟨a, b⟩ := ab
    simp only [decRoundsT, Rc5.decRounds, bind, Except.bind]
    cases idx s (2 * (n + 1) + 1) with
    | error e => rfl
    | ok x =>
      simp only
      cases idx s (2 * (n + 1)) with
      | error e => rfl
      | ok y =>
        simp only [← ih]
        cases decRoundsT s n ((a - y).rotateRight ((b - x).rotateRight a.toNat ^^^ a).toNat ^^^
            ((b - x).rotateRight a.toNat ^^^ a), (b - x).rotateRight a.toNat ^^^ a) <;> rfl

/-- C145: the record changes nothing: the plaintext is that of `decrypt`, with its panics. -/
theorem C145_faithful (k : Rc5.RC5) (b : Vector U8 8) : (decryptT k b).map Prod.fst = Rc5.decrypt k b := by
  simp only [decryptT, Rc5.decrypt, Rc5.decrypt32, ← decRoundsT_fst, bind, Except.bind]
  cases decRoundsT k.s k.r.toNat (leU32 b[0] b[1] b[2] b[3], leU32 b[4] b[5] b[6] b[7]) with
  | error e => rfl
  | ok r =>
    simp only [Except.map]
    cases idx k.s 1 with
    | error e => rfl
    | ok x =>
      simp only
      cases idx k.s 0 <;> rfl

theorem descend_length (S : Nat → U32) (n : Nat) (uv : U32 × U32) : (Rc5Leak.descend S n uv).2.length = n := by
  induction n generalizing uv with
  | zero => rfl
  | succ n ih => simp [Rc5Leak.descend, ih]

/-- C145: for every key, every decryption rotates exactly `2 * rounds` times, the first time by the last five bits of the
first word of the ciphertext. -/
theorem C145_count (key : List U8) (h1 : 1 ≤ key.length) (h2 : key.length ≤ 255) (rounds : U8) :
    ∃ k, Rc5.new key rounds = .ok k ∧ ∀ b, ∃ p amounts, decryptT k b = .ok (p, amounts) ∧
      amounts.length = 2 * rounds.toNat ∧ (1 ≤ rounds.toNat → amounts.head? = some (b[0].toNat % 32)) := by
  obtain ⟨k, hk, hr, hs⟩ := Rc5.new_spec key (List.length_pos_iff.1 h1) (by omega) rounds
  refine ⟨k, hk, fun b => ?_⟩
  have hs' : Rc5.Same k.s (2 * (k.r.toNat + 1)) (Spec.Rc5.table key rounds.toNat) := hr ▸ hs
  simp only [decryptT, Rc5Leak.decRoundsT_eq hs' _ (Nat.le_refl _),
    hs'.idx (show 0 < 2 * (k.r.toNat + 1) by omega), hs'.idx (show 1 < 2 * (k.r.toNat + 1) by omega), bind, Except.bind]
  refine ⟨_, _, rfl, by rw [descend_length, hr], fun hpos => ?_⟩
  obtain ⟨n, hn⟩ : ∃ n, 2 * k.r.toNat = n + 1 := ⟨2 * k.r.toNat - 1, by rw [hr]; omega⟩
  rw [hn]
  simp only [Rc5Leak.descend, List.head?_cons]
  rw [leU32_toNat]
  congr 1
  omega

/-- C145: whoever may have blocks of their choice decrypted and sees the plaintexts and the amounts of the rotations finds the
whole cipher object for every key and every number of rounds but 0, with `64 * rounds + 32` questions. `attack` depends on
nothing but the number of rounds. -/
theorem C145_recover (key : List U8) (h1 : 1 ≤ key.length) (h2 : key.length ≤ 255) (rounds : U8) (hr : 1 ≤ rounds.toNat) :
    ∃ k, Rc5.new key rounds = .ok k ∧
      ∃ oracle, (∀ b, decryptT k b = .ok (oracle b)) ∧
        (⟨((attack rounds.toNat).run oracle).1, rounds⟩ : Rc5.RC5) = k ∧
        ((attack rounds.toNat).run oracle).2 = 64 * rounds.toNat + 32 := by
  obtain ⟨k, hk, hkr, hs⟩ := Rc5.new_spec key (List.length_pos_iff.1 h1) (by omega) rounds
  obtain ⟨k', hk', hc⟩ := C145_count key h1 h2 rounds
  rw [hk] at hk'
  obtain rfl := Except.ok.inj hk'
  have htot : ∀ b, ∃ r, decryptT k b = .ok r := fun b => by
    obtain ⟨p, a, h, _⟩ := hc b
    exact ⟨_, h⟩
  choose oracle ho using htot
  refine ⟨k, hk, oracle, ho, ?_⟩
  have hrun := Rc5Leak.run_attackFrom (S := Spec.Rc5.table key rounds.toNat) (hkr ▸ hs) ho (hkr ▸ hr)
    (2 * k.r.toNat - 1) (Nat.le_refl _) (fun _ => 0) (fun i h1 h2 => by omega)
  have : (attack rounds.toNat).run oracle = (k.s, 64 * rounds.toNat + 32) := by
    rw [attack, ← hkr, hrun]
    congr 1
    rw [hkr]
    omega
  rw [this]
  exact ⟨by rw [← hkr], rfl⟩

/-- C145, consequence: what was found encrypts and decrypts like the cipher that was attacked. -/
theorem C145_use (key : List U8) (h1 : 1 ≤ key.length) (h2 : key.length ≤ 255) (rounds : U8) (hr : 1 ≤ rounds.toNat) :
    ∃ k, Rc5.new key rounds = .ok k ∧
      ∃ oracle, (∀ b, decryptT k b = .ok (oracle b)) ∧
        ∀ b p, Rc5.encrypt k p = .ok b → Rc5.decrypt ⟨((attack rounds.toNat).run oracle).1, rounds⟩ b = .ok p := by
  obtain ⟨k, hk, o, ho, he, _⟩ := C145_recover key h1 h2 rounds hr
  obtain ⟨k', hk', h⟩ := C14_rc5_inverse key h1 h2 rounds
  rw [hk] at hk'
  obtain rfl := Except.ok.inj hk'
  refine ⟨k, hk, o, ho, fun b p hb => ?_⟩
  rw [he]
  obtain ⟨c, h3, h4⟩ := (h p).1
  rw [hb] at h3
  obtain rfl := Except.ok.inj h3
  exact h4

/-- The record of one decryption with 2 rounds. -/
example : (do let k ← Rc5.new [1, 2, 3] 2; decryptT k #v[35, 2, 3, 4, 5, 6, 7, 8]).map Prod.snd = .ok [3, 18, 10, 15] := by
  decide +kernel
/-- The attack, carried out on one round. -/
example : (do
    let k ← Rc5.new [1, 2, 3] 1
    .ok ((attack 1).run (fun b => match decryptT k b with | .ok r => r | .error _ => default), k.s)) =
    (do let k ← Rc5.new [1, 2, 3] 1; .ok ((k.s, 96), k.s)) := by decide +kernel
/-- C145 applied. -/
example : ∃ k, Rc5.new [1, 2, 3] 12 = .ok k ∧ ∃ oracle, (∀ b, decryptT k b = .ok (oracle b)) ∧
    (⟨((attack 12).run oracle).1, 12⟩ : Rc5.RC5) = k ∧ ((attack 12).run oracle).2 = 800 :=
  C145_recover [1, 2, 3] (by decide) (by decide) 12 (by decide)

end Verif.Props
