import Verif.Proof.Oaep

/-! # `encrypt_message` and `decrypt_message` -/

namespace Verif.Model.Oaep
open Verif Verif.Model.Rsa Verif.Spec.Big Verif.Model.Big

theorem beVal_lt (l : List U8) : beVal l < 256 ^ l.length := by
  have := leVal_lt l.reverse
  rwa [List.length_reverse] at this

theorem beVal_cons (b : U8) (l : List U8) : beVal (b :: l) = b.toNat * 256 ^ l.length + beVal l := by
  unfold beVal
  rw [List.reverse_cons, leVal_append, List.length_reverse]
  simp only [leVal]
  ring

theorem beVal_zeros_append (k : Nat) (l : List U8) : beVal (List.replicate k 0#8 ++ l) = beVal l := by
  unfold beVal
  rw [List.reverse_append, List.reverse_replicate, leVal_append_zeros]

theorem length_toBeBytes (n : Nat) : (toBeBytes (big n)).length = (big n).bytes.length := by
  unfold toBeBytes; simp

/-- `n_len` as computed by `encrypt_message`: the number of bytes of the modulus. -/
theorem nLen_bounds (n : Nat) (hn : 0 < n) : 256 ^ ((n.size - 1) / 8) ≤ n ∧ n < 256 ^ ((n.size - 1) / 8 + 1) := by
  have h0 : 0 < n.size := Nat.size_pos.2 hn
  have h1 : 2 ^ (n.size - 1) ≤ n := Nat.lt_size.1 (by omega)
  have h2 := Nat.lt_size_self n
  rw [show 256 = 2 ^ 8 by rfl, ← Nat.pow_mul, ← Nat.pow_mul]
  constructor
  · exact Nat.le_trans (Nat.pow_le_pow_right (by omega) (by omega)) h1
  · exact Nat.lt_of_lt_of_le h2 (Nat.pow_le_pow_right (by omega) (by omega))

/-- What `encrypt_message` computes when the padding scheme returns `em`, a number below the modulus. -/
theorem encryptMessage_eq {ε : Type} {cap : Nat → Nat} (hc : CapOk cap) (e n : Nat) (hn : 2 ≤ n)
    (hsn : n.size ≤ 2 ^ 31 - 8) (hse : e.size ≤ 2 ^ 32 - 8) (padding : PaddingScheme ε) (msg em : List U8)
    (hp : padding.encode [] msg ((n.size - 1) / 8 + 1) = .ok em) (hem : beVal em < n) :
    encryptMessage cap ⟨big e, big n⟩ msg padding = .ok (toBeBytes (big (beVal em ^ e % n))) := by
  have hl : (big n).bytes.length < 2 ^ 29 := by rw [length_big]; omega
  have hsm : (beVal em).size ≤ 2 ^ 31 - 8 := Nat.le_trans (Nat.size_le_size hem.le) hsn
  have hlm : (big (beVal em)).bytes.length < 2 ^ 29 := by rw [length_big]; omega
  have h0 : 0 < n.size := Nat.size_pos.2 (by omega)
  have e1 : subU n.size 1 = .ok (n.size - 1) := by unfold subU; rw [if_pos (by omega)]
  have e2 := cmp_norm (norm_big (beVal em)) (norm_big n) hlm hl
  rw [val_big, val_big, Nat.compare_eq_lt.2 hem] at e2
  have e3 := powMod_ok hc (beVal em) e n hn hsn hsm hse
  unfold encryptMessage encrypt
  simp only [bitsUsed_norm (norm_big n) hl, val_big, e1, hp, fromBeBytes_eq, e2, bind, Except.bind]
  rw [if_neg (by simp)]
  simp only [pure, Except.pure, e3]

theorem encryptMessage_panics {ε : Type} {cap : Nat → Nat} (e n : Nat) (hn : 0 < n)
    (hsn : n.size ≤ 2 ^ 31 - 8) (padding : PaddingScheme ε) (msg : List U8) (p : Panic)
    (hp : padding.encode [] msg ((n.size - 1) / 8 + 1) = .error p) :
    encryptMessage cap ⟨big e, big n⟩ msg padding = .error p := by
  have hl : (big n).bytes.length < 2 ^ 29 := by rw [length_big]; omega
  have h0 : 0 < n.size := Nat.size_pos.2 (by omega)
  have e1 : subU n.size 1 = .ok (n.size - 1) := by unfold subU; rw [if_pos (by omega)]
  unfold encryptMessage
  simp only [bitsUsed_norm (norm_big n) hl, val_big, e1, hp, bind, Except.bind]

theorem zeros_toBeBytes (k m : Nat) (h : (big m).bytes.length ≤ k) :
    (List.replicate k 0#8).take (k - (big m).bytes.length) ++ toBeBytes (big m) = natToBE k m := by
  have hl : ((List.replicate k 0#8).take (k - (big m).bytes.length) ++ toBeBytes (big m)).length = k := by
    rw [List.length_append, length_toBeBytes]; simp; omega
  rw [← natToBE_beVal ((List.replicate k 0#8).take (k - (big m).bytes.length) ++ toBeBytes (big m)), hl,
    List.take_replicate, beVal_zeros_append, toBeBytes_val, val_big]

/-- What `decrypt_message` computes. -/
theorem decryptMessage_eq {ε : Type} {cap : Nat → Nat} (hc : CapOk cap) (d n : Nat) (hn : 2 ≤ n)
    (hsn : n.size ≤ 2 ^ 31 - 8) (hsd : d.size ≤ 2 ^ 32 - 8) (padding : PaddingScheme ε) (ct : List U8)
    (hct : (beVal ct).size ≤ 2 ^ 31 - 8) :
    decryptMessage cap ⟨big d, big n⟩ ct padding =
      if 256 ^ ct.length ≤ beVal ct ^ d % n then .error .overflow
      else (do unwrapResult (← padding.decode [] (natToBE ct.length (beVal ct ^ d % n)) ct.length)) := by
  have e1 := powMod_ok hc (beVal ct) d n hn hsn hct hsd
  unfold decryptMessage decrypt
  simp only [fromBeBytes_eq, e1, bind, Except.bind, List.length_replicate, length_toBeBytes]
  generalize beVal ct ^ d % n = m
  by_cases h : 256 ^ ct.length ≤ m
  · have hl : ¬ (big m).bytes.length ≤ ct.length := by rw [length_le_iff]; omega
    have e2 : subU ct.length (big m).bytes.length = .error .overflow := by unfold subU; rw [if_neg hl]
    rw [if_pos h, e2]
  · have hl : (big m).bytes.length ≤ ct.length := by rw [length_le_iff]; omega
    have e2 : subU ct.length (big m).bytes.length = .ok (ct.length - (big m).bytes.length) := by
      unfold subU; rw [if_pos hl]
    rw [if_neg h, e2]
    simp only
    rw [zeros_toBeBytes _ _ hl, length_natToBE]

theorem beVal_encode_lt {N : Nat} {h : List U8 → Vector U8 N} (hN : 0 < N) (seed label message : List U8) (k : Nat)
    (hs : seed.length = N) (hk : message.length + 2 * N + 2 ≤ k) :
    beVal (Spec.Oaep.encode h seed label message k) < 256 ^ (k - 1) := by
  have hl := length_encode (h := h) hN seed label message k hs hk
  have hc : ∃ rest, Spec.Oaep.encode h seed label message k = 0#8 :: rest := ⟨_, rfl⟩
  obtain ⟨rest, hr⟩ := hc
  rw [hr] at hl ⊢
  simp only [List.length_cons] at hl
  rw [beVal_cons, show k - 1 = rest.length by omega]
  have := beVal_lt rest
  simpa using this

end Verif.Model.Oaep
