import Verif.Proof.ReleaseRsa
import Verif.Proof.Halts

/-! # The loops of the code without overflow checks do not run out of fuel -/

namespace Verif.Model.Release
open Verif Verif.Spec.Big Verif.Spec.Release
open _root_.Verif.Model.Big (BigUint halts_update halts_clearLoop halts_add halts_addByte halts_shr halts_fromU128
  halts_fromBeBytes halts_asU128 shr_big length_le_iff)
open _root_.Verif.Model.Rsa (halts_divU halts_unwrapResult halts_unwrapOption)
open _root_.Verif.Model.Oaep (halts_xorSlices halts_slice)

theorem halts_overflowBecomes {α : Type} {e : Panic} (he : e ≠ .diverged) {d : R α} (h : Halts d) :
    Halts (overflowBecomes e d) := by
  unfold overflowBecomes
  split
  · exact halts_error he
  · exact h

theorem halts_bitsUsed (x : BigUint) : Halts (bitsUsed x) := by
  unfold bitsUsed Big.ilog2
  repeat' halt_step

theorem halts_isSet (x : BigUint) (i : Nat) : Halts (isSet x i) := by
  unfold isSet
  repeat' first | exact halts_bitsUsed _ | halt_step

theorem halts_cmpLoop (x y : BigUint) (n : Nat) : Halts (cmpLoop x y n) := by
  induction n with
  | zero => exact halts_ok _
  | succ n ih =>
    unfold cmpLoop
    repeat' first | exact halts_isSet _ _ | halt_step

theorem halts_cmp (x y : BigUint) : Halts (cmp x y) := by
  unfold cmp
  refine halts_bind (halts_bitsUsed x) fun a _ => halts_bind (halts_bitsUsed y) fun b _ => ?_
  split
  · exact halts_bind (halts_bitsUsed x) fun _ _ => halts_cmpLoop _ _ _
  · exact halts_pure _

theorem halts_pushAll (a b : Nat) : Halts (pushAll a b) :=
  halts_ite (fun _ => halts_ok _) (fun _ => halts_error (by decide))

theorem halts_subAssign (cap : Nat → Nat) (x y : BigUint) : Halts (subAssign cap x y) := by
  unfold subAssign
  repeat' first
    | exact halts_bitsUsed _ | exact halts_pushAll _ _ | exact halts_add _ _ | exact halts_addByte _ _
    | exact halts_clearLoop _ _ _ | halt_step

theorem halts_remLoop (cap : Nat → Nat) (x m : BigUint) (n : Nat) : Halts (remLoop cap x m n) := by
  induction n generalizing x m with
  | zero => exact halts_ok _
  | succ n ih =>
    unfold remLoop
    repeat' first
      | exact halts_cmp _ _ | exact halts_subAssign _ _ _ | exact halts_shr _ _ | exact ih _ _ | halt_step

theorem halts_rem (cap : Nat → Nat) (x y : BigUint) : Halts (rem cap x y) := by
  unfold rem
  repeat' first | exact halts_bitsUsed _ | exact halts_remLoop _ _ _ _ | halt_step

theorem halts_mulModLoop (cap : Nat → Nat) (m : BigUint) (fuel : Nat) (r a : BigUint) (n : Nat) (h : n.size < fuel) :
    Halts (mulModLoop cap m fuel r a (big n)) := by
  induction fuel generalizing r a n with
  | zero => omega
  | succ fuel ih =>
    unfold mulModLoop
    refine halts_bind (halts_bitsUsed _) fun k hk => ?_
    by_cases hn : n = 0
    · have : k = 0 := by
        rw [hn, bitsUsed_big] at hk
        exact (Except.ok.inj hk).symm
      subst this
      rw [if_neg (by simp)]
      exact halts_ok _
    · have hs : Big.shr (big n) 1 = .ok (big (n / 2 ^ 1)) := shr_big n 1 (by omega)
      have hlt : (n / 2 ^ 1).size < n.size := by
        have h1 := Nat.size_pos.2 (show 0 < n by omega)
        have h2 : n < 2 ^ n.size := Nat.lt_size_self n
        have : (n / 2 ^ 1).size ≤ n.size - 1 := by
          rw [Nat.size_le, Nat.div_lt_iff_lt_mul (by omega), ← Nat.pow_add]
          have e : n.size - 1 + 1 = n.size := by omega
          rw [e]; exact h2
        omega
      refine halts_ite (fun _ => ?_) (fun _ => halts_ok _)
      have key : ∀ r' : BigUint, Halts (do
          let a ← rem cap (Big.shl a 1) m
          let b ← Big.shr (big n) 1
          mulModLoop cap m fuel r' a b) := fun r' =>
        halts_bind (halts_rem _ _ _) fun a' _ => halts_bind (halts_shr _ _) fun b' hb => by
          rw [hs] at hb; cases hb
          exact ih _ _ _ (by omega)
      refine halts_bind (halts_isSet _ _) fun c _ => ?_
      refine halts_ite (fun _ => ?_) (fun _ => ?_)
      · exact halts_bind (halts_add r a) fun s _ => halts_bind (halts_rem cap s m) fun r' _ => key r'
      · exact halts_bind (halts_ok _) fun r' _ => key r'

theorem bitsUsed_panics {x : BigUint} (h : ¬ Normalised x) : bitsUsed x = .error .ilogZero := by
  obtain ⟨l, hl⟩ := Big.not_norm_concat h
  have hlen : x.bytes.length = l.length + 1 := by rw [hl]; simp
  unfold bitsUsed
  have e1 : x.bytes.isEmpty = false := by rw [hl]; simp
  have e3 : idx x.bytes (x.bytes.length - 1) = .ok 0#8 := by
    unfold idx
    rw [hlen, Nat.add_sub_cancel, hl]
    simp
  simp only [e1, e3, bind, Except.bind, Bool.false_eq_true, if_false]
  rfl

theorem halts_mulMod (cap : Nat → Nat) (a b m : BigUint) : Halts (mulMod cap a b m) := by
  unfold mulMod
  refine halts_bind (halts_fromU128 _) fun r _ => ?_
  by_cases hb : Normalised b
  · have e := Big.eq_big hb
    have hs := Big.size_val_le b
    rw [e] at hs ⊢
    rw [Big.val_big] at hs
    exact halts_mulModLoop cap m _ r a _ (by omega)
  · unfold mulModLoop
    exact halts_bind (halts_bitsUsed b) fun k hk => by rw [bitsUsed_panics hb] at hk; cases hk

theorem halts_powModLoop (cap : Nat → Nat) (p m : BigUint) (k i : Nat) (r a : BigUint) :
    Halts (powModLoop cap p m k i r a) := by
  induction k generalizing i r a with
  | zero => exact halts_ok _
  | succ k ih =>
    unfold powModLoop
    repeat' first | exact halts_isSet _ _ | exact halts_mulMod _ _ _ _ | exact ih _ _ _ | halt_step

theorem halts_powMod (cap : Nat → Nat) (a p m : BigUint) : Halts (powMod cap a p m) := by
  unfold powMod
  repeat' first | exact halts_bitsUsed _ | exact halts_fromU128 _ | exact halts_powModLoop _ _ _ _ _ _ _ | halt_step

theorem halts_inverseLoop (fuel r newR : Nat) (t newT : Int) (h : newR < fuel) (hr : r < 2 ^ 128) (hn : newR < 2 ^ 128) :
    Halts (inverseLoop fuel r newR t newT) := by
  induction fuel generalizing r newR t newT with
  | zero => omega
  | succ fuel ih =>
    unfold inverseLoop
    refine halts_ite (fun h0 => ?_) (fun _ => halts_ok _)
    refine halts_bind (halts_divU _ _) fun q hq => ?_
    unfold Rsa.divU at hq
    rw [if_neg h0] at hq
    cases hq
    have h1 := Nat.div_add_mod r newR
    have h2 := Nat.mod_lt r (show newR > 0 by omega)
    have h3 : r / newR * newR = newR * (r / newR) := Nat.mul_comm _ _
    have e : subW 128 r (mulW 128 (r / newR) newR) = r % newR := by
      unfold subW mulW
      rw [Nat.mod_eq_of_lt (by omega), if_pos (by omega)]
      omega
    rw [e]
    exact ih _ _ _ _ (by omega) hn (by omega)

theorem halts_inverse (a n : Nat) (ha : a < 2 ^ 128) (hn : n < 2 ^ 128) : Halts (inverse a n) := by
  unfold inverse
  refine halts_bind (halts_inverseLoop _ _ _ _ _ (by omega) hn ha) fun x _ => ?_
  repeat' halt_step

theorem halts_createKeys (p q e : BigUint) : Halts (createKeys p q e) := by
  unfold createKeys
  refine halts_bind (halts_asU128 _) fun p' _ => halts_bind (halts_unwrapResult _) fun p _ => ?_
  refine halts_bind (halts_asU128 _) fun q' _ => halts_bind (halts_unwrapResult _) fun q _ => ?_
  refine halts_bind (halts_asU128 _) fun e' _ => halts_bind (halts_unwrapResult _) fun e _ => ?_
  unfold lcm
  refine halts_bind (halts_divU _ _) fun l hl => ?_
  have : l < 2 ^ 128 := by
    unfold Rsa.divU at hl
    split at hl
    · cases hl
    · cases hl
      exact (Nat.div_le_self _ _).trans_lt (Nat.mod_lt _ (by norm_num))
  refine halts_bind (halts_inverse _ _ e.isLt this) fun o _ => ?_
  repeat' first | exact halts_unwrapOption _ | exact halts_fromU128 _ | halt_step

theorem halts_encryptMessage {ε : Type} (cap : Nat → Nat) (key : Rsa.RsaEncryption) (m : List U8) (s : Rsa.PaddingScheme ε)
    (hs : ∀ l m k, Halts (s.encode l m k)) : Halts (encryptMessage cap key m s) := by
  unfold encryptMessage encrypt
  repeat' first
    | exact hs _ _ _ | exact halts_bitsUsed _ | exact halts_fromBeBytes _ | exact halts_cmp _ _ | exact halts_powMod _ _ _ _
    | halt_step

theorem halts_decryptMessage {ε : Type} (cap : Nat → Nat) (key : Rsa.RsaEncryption) (c : List U8) (s : Rsa.PaddingScheme ε)
    (hs : ∀ l m k, Halts (s.decode l m k)) : Halts (decryptMessage cap key c s) := by
  unfold decryptMessage decrypt
  repeat' first
    | exact hs _ _ _ | exact halts_fromBeBytes _ | exact halts_powMod _ _ _ _ | exact halts_unwrapResult _ | halt_step

theorem halts_mgf1Loop {N : Nat} (hN : 0 < N) (hash : List U8 → R (Vector U8 N)) (hh : ∀ l, Halts (hash l)) (seed : List U8)
    (size fuel : Nat) (out : List U8) (c : Nat) (h0 : 0 < fuel)
    (h : size < fuel + out.length) :
    Halts (mgf1Loop hash seed size fuel out c) := by
  induction fuel generalizing out c with
  | zero => omega
  | succ fuel ih =>
    unfold mgf1Loop
    refine halts_ite (fun _ => ?_) (fun _ => halts_ok _)
    refine halts_bind (hh _) fun d _ => ?_
    refine halts_bind (halts_pushAll _ _) fun c' hc' => ?_
    exact ih _ _ (by omega) (by rw [List.length_append, Vector.length_toList]; omega)

theorem halts_mgf1 {N : Nat} (hN : 0 < N) (hash : List U8 → R (Vector U8 N)) (hh : ∀ l, Halts (hash l)) (seed : List U8)
    (size : Nat) : Halts (mgf1 hash seed size) := by
  unfold mgf1 Oaep.withCapacity
  have := halts_mgf1Loop hN hash hh seed size (2 ^ 32 + 1 + size) [] 0 (by omega) (by rw [List.length_nil]; omega)
  repeat' halt_step

theorem halts_encode {N : Nat} (hN : 0 < N) (hash : List U8 → R (Vector U8 N)) (hh : ∀ l, Halts (hash l)) (label m : List U8)
    (k : Nat) : Halts (encode hash label m k) := by
  unfold encode
  repeat' first | exact hh _ | exact halts_mgf1 hN _ hh _ _ | exact halts_xorSlices _ _ | halt_step

theorem halts_decode {N : Nat} (hN : 0 < N) (hash : List U8 → R (Vector U8 N)) (hh : ∀ l, Halts (hash l)) (label em : List U8)
    (k : Nat) : Halts (decode hash label em k) := by
  unfold decode
  repeat' first
    | exact hh _ | exact halts_mgf1 hN _ hh _ _ | exact halts_xorSlices _ _ | exact halts_slice _ _ _ | halt_step
    | split

/-- With an empty digest, the loop goes on for ever. -/
theorem mgf1Loop_empty (hash : List U8 → R (Vector U8 0)) (hh : ∀ l, ∃ d, hash l = .ok d) (seed : List U8) (size : Nat)
    (hs : 0 < size) (fuel c : Nat) : mgf1Loop hash seed size fuel [] c = .error .diverged := by
  induction fuel generalizing c with
  | zero => rfl
  | succ fuel ih =>
    obtain ⟨d, hd⟩ := hh (seed ++ natToBE 4 c)
    have e : d.toList = [] := List.eq_nil_of_length_eq_zero (by rw [Vector.length_toList])
    rw [mgf1Loop, if_pos (by rw [List.length_nil]; exact hs), hd]
    change (pushAll 0 0 >>= fun _ => mgf1Loop hash seed size fuel ([] ++ d.toList) (addW 32 c 1)) = _
    rw [e]
    exact ih _

/-- The bytes the loop appends. -/
theorem mgf1Loop_ok {N : Nat} (hN : 0 < N) (h : List U8 → Vector U8 N) (hash : List U8 → R (Vector U8 N))
    (hh : ∀ m, hash m = .ok (h m)) (seed : List U8) (size : Nat) (hsize : size + N < 2 ^ 63) :
    ∀ (fuel : Nat) (out : List U8) (k : Nat), 0 < fuel → size < fuel + out.length → out.length = k * N →
      (∀ i (hi : i < out.length), out[i] = (h (seed ++ natToBE 4 (i / N % 2 ^ 32)))[i % N]'(Nat.mod_lt _ hN)) →
      ∃ o, mgf1Loop hash seed size fuel out (k % 2 ^ 32) = .ok o ∧ size ≤ o.length ∧
        ∀ i (hi : i < o.length), o[i] = (h (seed ++ natToBE 4 (i / N % 2 ^ 32)))[i % N]'(Nat.mod_lt _ hN) := by
  intro fuel
  induction fuel with
  | zero => intro out k h0; omega
  | succ fuel ih =>
    intro out k _ hf hl ho
    rw [mgf1Loop]
    by_cases hlt : out.length < size
    · rw [if_pos hlt, hh]
      have hp : pushAll out.length N = .ok () := by unfold pushAll; rw [if_pos (by omega)]
      simp only [bind, Except.bind, hp]
      have hc : addW 32 (k % 2 ^ 32) 1 = (k + 1) % 2 ^ 32 := by unfold addW; omega
      rw [hc]
      have hlen : (out ++ (h (seed ++ natToBE 4 (k % 2 ^ 32))).toList).length = out.length + N := by
        rw [List.length_append, Vector.length_toList]
      refine ih _ (k + 1) (by omega) (by rw [hlen]; omega) (by rw [hlen, hl]; ring) ?_
      intro i hi
      rw [hlen] at hi
      by_cases h1 : i < out.length
      · rw [List.getElem_append_left h1]; exact ho i h1
      · rw [List.getElem_append_right (by omega)]
        have hd : i / N = k := by
          rw [Nat.div_eq_iff hN]; constructor
          · rw [← hl]; omega
          · rw [← hl]; omega
        have hm : i % N = i - out.length := by
          have := Nat.div_add_mod i N
          rw [hd, Nat.mul_comm, ← hl] at this; omega
        simp only [hd, hm, Vector.getElem_toList]
    · rw [if_neg hlt]
      exact ⟨out, rfl, by omega, ho⟩

theorem mgf1_ok {N : Nat} (hN : 0 < N) (h : List U8 → Vector U8 N) (hash : List U8 → R (Vector U8 N))
    (hh : ∀ m, hash m = .ok (h m)) (seed : List U8) (size : Nat) (hsize : size + N < 2 ^ 63) :
    ∃ o, mgf1 hash seed size = .ok o ∧ o.length = size ∧
      ∀ i (hi : i < o.length), o[i] = (h (seed ++ natToBE 4 (i / N % 2 ^ 32)))[i % N]'(Nat.mod_lt _ hN) := by
  obtain ⟨o, ho, hl, hb⟩ := mgf1Loop_ok hN h hash hh seed size hsize (2 ^ 32 + 1 + size) [] 0 (by omega)
    (by rw [List.length_nil]; omega) (by simp) (fun i hi => by simp at hi)
  refine ⟨o.take size, ?_, by rw [List.length_take]; omega, fun i hi => ?_⟩
  · unfold mgf1 Oaep.withCapacity
    have : addW 64 size N < 2 ^ 63 := by unfold addW; omega
    rw [if_pos this]
    rw [Nat.zero_mod] at ho
    simp only [bind, Except.bind, ho]
    rfl
  · rw [List.getElem_take]; exact hb i _

end Verif.Model.Release
