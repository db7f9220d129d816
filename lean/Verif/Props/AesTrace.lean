import Verif.Model.AesTrace
import Verif.Props.Aes

/-! # C129: what the table lookups of AES reveal -/

namespace Verif.Props
open Verif Verif.Model Verif.Model.AesTrace

/-- Forgetting the lookups. -/
def forget (x : R Traced) : R (Vector U8 16) := x.map Prod.fst

theorem forget_encRounds (c : Aes.Aes) (ks : List Nat) (s : Traced) :
    forget (ks.foldlM (encRoundT c) s) = ks.foldlM (Aes.encRound c) s.1 := by
  induction ks generalizing s with
  | nil => rfl
  | cons k ks ih =>
    rw [List.foldlM_cons, List.foldlM_cons]
    cases hk : idx c.keys k with
    | error e => simp [encRoundT, Aes.encRound, hk, bind, Except.bind, forget, Except.map]
    | ok key =>
      simp only [encRoundT, Aes.encRound, hk, bind, Except.bind]
      exact ih _

theorem forget_decRounds (c : Aes.Aes) (ks : List Nat) (s : Traced) :
    forget (ks.foldlM (decRoundT c) s) = ks.foldlM (Aes.decRound c) s.1 := by
  induction ks generalizing s with
  | nil => rfl
  | cons k ks ih =>
    rw [List.foldlM_cons, List.foldlM_cons]
    cases hk : idx c.keys k with
    | error e => simp [decRoundT, Aes.decRound, hk, bind, Except.bind, forget, Except.map]
    | ok key =>
      simp only [decRoundT, Aes.decRound, hk, bind, Except.bind]
      exact ih _

/-- C129: the functions with the record compute what the others do. -/
theorem C129_same (c : Aes.Aes) (b : Vector U8 16) :
    forget (encryptT c b) = Aes.encrypt c b ∧ forget (decryptT c b) = Aes.decrypt c b := by
  constructor
  · unfold encryptT Aes.encrypt
    cases h0 : idx c.keys 0 with
    | error e => rfl
    | ok k0 =>
      simp only [bind, Except.bind]
      have := forget_encRounds c (List.range' 1 (c.rounds - 1)) (Aes.addKey k0 b, [])
      rw [← this]
      cases (List.range' 1 (c.rounds - 1)).foldlM (encRoundT c) (Aes.addKey k0 b, []) with
      | error e => rfl
      | ok s =>
        cases h1 : idx c.keys c.rounds with
        | error e => simp [forget, Except.map]
        | ok k1 => rfl
  · unfold decryptT Aes.decrypt
    cases h0 : idx c.keys c.rounds with
    | error e => rfl
    | ok k0 =>
      simp only [bind, Except.bind]
      have := forget_decRounds c (List.range' 1 (c.rounds - 1)).reverse
        (unsubstituteT (quiet Aes.unshiftRows (Aes.addKey k0 b, [])))
      have e : (unsubstituteT (quiet Aes.unshiftRows (Aes.addKey k0 b, []))).1 =
        Aes.unsubstitute (Aes.unshiftRows (Aes.addKey k0 b)) := rfl
      rw [e] at this
      rw [← this]
      cases (List.range' 1 (c.rounds - 1)).reverse.foldlM (decRoundT c)
          (unsubstituteT (quiet Aes.unshiftRows (Aes.addKey k0 b, []))) with
      | error e => rfl
      | ok s =>
        cases h1 : idx c.keys 0 with
        | error e => simp [forget, Except.map]
        | ok k1 => rfl

/-- The rounds only append to the record, 16 lookups each. -/
theorem encRounds_append (c : Aes.Aes) (ks : List Nat) (s t : Traced) (h : ks.foldlM (encRoundT c) s = .ok t) :
    ∃ u, t.2 = s.2 ++ u ∧ u.length = 16 * ks.length ∧ (u ++ t.1.toList).take 16 = s.1.toList := by
  induction ks generalizing s with
  | nil =>
    cases h
    exact ⟨[], by simp, by simp, by simp⟩
  | cons k ks ih =>
    rw [List.foldlM_cons] at h
    cases hk : idx c.keys k with
    | error e => simp [encRoundT, hk, bind, Except.bind] at h
    | ok key =>
      simp only [encRoundT, hk, bind, Except.bind] at h
      obtain ⟨u, h1, h2, _⟩ := ih _ h
      refine ⟨s.1.toList ++ u, ?_, by simp [h2]; omega, by simp⟩
      rw [h1]
      simp [quiet, substituteT]

theorem decRounds_append (c : Aes.Aes) (ks : List Nat) (s t : Traced) (h : ks.foldlM (decRoundT c) s = .ok t) :
    ∃ u, t.2 = s.2 ++ u ∧ u.length = 16 * ks.length := by
  induction ks generalizing s with
  | nil =>
    cases h
    exact ⟨[], by simp, by simp⟩
  | cons k ks ih =>
    rw [List.foldlM_cons] at h
    cases hk : idx c.keys k with
    | error e => simp [decRoundT, hk, bind, Except.bind] at h
    | ok key =>
      simp only [decRoundT, hk, bind, Except.bind] at h
      obtain ⟨u, h1, h2⟩ := ih _ h
      refine ⟨(Aes.unshiftRows (Aes.unmixColumns (Aes.addKey key s.1))).toList ++ u, ?_, by simp [h2]; omega⟩
      rw [h1]
      simp [quiet, unsubstituteT]

/-- What is in the record of an encryption: at first the bytes of the plaintext xor the first round key, then the
intermediate state of the second round. -/
theorem encrypt_trace (c : Aes.Aes) (hr : 2 ≤ c.rounds) (hk : c.keys.length = c.rounds + 1) (b : Vector U8 16) :
    ∃ e tr, encryptT c b = .ok (e, tr) ∧ tr.length = 16 * c.rounds ∧
      tr.take 32 = (Aes.addKey (c.keys[0]'(by omega)) b).toList ++ (Aes.addKey (c.keys[1]'(by omega))
        (Aes.mixColumns (Aes.shiftRows (Aes.substitute (Aes.addKey (c.keys[0]'(by omega)) b))))).toList := by
  have hi : ∀ i (h : i < c.keys.length), idx c.keys i = .ok c.keys[i] := by
    intro i h; unfold idx; rw [List.getElem?_eq_getElem h]
  have hall : ∀ (ks : List Nat) (s : Traced), (∀ k ∈ ks, k < c.keys.length) → ∃ t, ks.foldlM (encRoundT c) s = .ok t := by
    intro ks
    induction ks with
    | nil => intro s _; exact ⟨s, rfl⟩
    | cons k ks ih =>
      intro s h
      rw [List.foldlM_cons]
      simp only [encRoundT, hi k (h k (by simp)), bind, Except.bind]
      exact ih _ fun k hk => h k (by simp [hk])
  obtain ⟨n, hn⟩ : ∃ n, c.rounds = n + 2 := ⟨c.rounds - 2, by omega⟩
  have hrange : List.range' 1 (c.rounds - 1) = 1 :: List.range' 2 n := by
    rw [hn, show n + 2 - 1 = n + 1 by omega, List.range'_succ]
  obtain ⟨t, ht⟩ := hall (List.range' 2 n) (quiet (Aes.addKey (c.keys[1]'(by omega)))
    (quiet Aes.mixColumns (quiet Aes.shiftRows (substituteT (Aes.addKey (c.keys[0]'(by omega)) b, [])))))
    (by intro k h; rw [List.mem_range'_1] at h; omega)
  obtain ⟨u, h1, h2, h3⟩ := encRounds_append c _ _ _ ht
  have hfold : (List.range' 1 (c.rounds - 1)).foldlM (encRoundT c) (Aes.addKey (c.keys[0]'(by omega)) b, []) = .ok t := by
    rw [hrange, List.foldlM_cons, ← ht]
    have : encRoundT c (Aes.addKey (c.keys[0]'(by omega)) b, []) 1 = .ok (quiet (Aes.addKey (c.keys[1]'(by omega)))
        (quiet Aes.mixColumns (quiet Aes.shiftRows (substituteT (Aes.addKey (c.keys[0]'(by omega)) b, []))))) := by
      unfold encRoundT
      rw [hi 1 (by omega)]
      rfl
    rw [this]
    rfl
  unfold encryptT
  rw [hi 0 (by omega), hi c.rounds (by omega)]
  simp only [bind, Except.bind, hfold]
  refine ⟨_, _, rfl, ?_, ?_⟩
  · simp only [quiet, substituteT, h1, List.nil_append, List.length_append, Vector.length_toList, h2, List.length_range', hn]
    omega
  · simp only [quiet, substituteT, h1, List.nil_append, List.append_assoc]
    rw [List.take_append, List.take_of_length_le (by simp)]
    rw [List.append_cancel_left_eq, Vector.length_toList]
    simpa only [quiet, substituteT] using h3

theorem decrypt_trace (c : Aes.Aes) (hk : c.keys.length = c.rounds + 1) (hr : 1 ≤ c.rounds) (b : Vector U8 16) :
    ∃ d tr, decryptT c b = .ok (d, tr) ∧ tr.length = 16 * c.rounds ∧
      tr.take 16 = (Aes.unshiftRows (Aes.addKey (c.keys[c.rounds]'(by omega)) b)).toList := by
  have hi : ∀ i (h : i < c.keys.length), idx c.keys i = .ok c.keys[i] := by
    intro i h; unfold idx; rw [List.getElem?_eq_getElem h]
  have hall : ∀ (ks : List Nat) (s : Traced), (∀ k ∈ ks, k < c.keys.length) → ∃ t, ks.foldlM (decRoundT c) s = .ok t := by
    intro ks
    induction ks with
    | nil => intro s _; exact ⟨s, rfl⟩
    | cons k ks ih =>
      intro s h
      rw [List.foldlM_cons]
      simp only [decRoundT, hi k (h k (by simp)), bind, Except.bind]
      exact ih _ fun k hk => h k (by simp [hk])
  obtain ⟨t, ht⟩ := hall (List.range' 1 (c.rounds - 1)).reverse (unsubstituteT (quiet Aes.unshiftRows
    (Aes.addKey (c.keys[c.rounds]'(by omega)) b, [])))
    (by intro k h; rw [List.mem_reverse, List.mem_range'_1] at h; omega)
  obtain ⟨u, h1, h2⟩ := decRounds_append c _ _ _ ht
  unfold decryptT
  rw [hi 0 (by omega), hi c.rounds (by omega)]
  simp only [bind, Except.bind, ht]
  refine ⟨_, _, rfl, ?_, ?_⟩
  · simp only [quiet, unsubstituteT, h1, List.nil_append, List.length_append, Vector.length_toList, h2, List.length_reverse,
      List.length_range']
    omega
  · simp only [quiet, unsubstituteT, h1, List.nil_append]
    rw [List.take_append, List.take_of_length_le (by simp)]
    simp

/-- The first two rounds of a decryption. -/
theorem decrypt_trace2 (c : Aes.Aes) (hk : c.keys.length = c.rounds + 1) (hr : 2 ≤ c.rounds) (b : Vector U8 16) :
    ∃ d tr, decryptT c b = .ok (d, tr) ∧
      tr.take 32 = (Aes.unshiftRows (Aes.addKey (c.keys[c.rounds]'(by omega)) b)).toList ++
        (Aes.unshiftRows (Aes.unmixColumns (Aes.addKey (c.keys[c.rounds - 1]'(by omega))
          (Aes.unsubstitute (Aes.unshiftRows (Aes.addKey (c.keys[c.rounds]'(by omega)) b)))))).toList := by
  have hi : ∀ i (h : i < c.keys.length), idx c.keys i = .ok c.keys[i] := by
    intro i h; unfold idx; rw [List.getElem?_eq_getElem h]
  have hall : ∀ (ks : List Nat) (s : Traced), (∀ k ∈ ks, k < c.keys.length) → ∃ t, ks.foldlM (decRoundT c) s = .ok t := by
    intro ks
    induction ks with
    | nil => intro s _; exact ⟨s, rfl⟩
    | cons k ks ih =>
      intro s h
      rw [List.foldlM_cons]
      simp only [decRoundT, hi k (h k (by simp)), bind, Except.bind]
      exact ih _ fun k hk => h k (by simp [hk])
  have hrange : (List.range' 1 (c.rounds - 1)).reverse = (c.rounds - 1) :: (List.range' 1 (c.rounds - 2)).reverse := by
    obtain ⟨n, hn⟩ : ∃ n, c.rounds = n + 2 := ⟨c.rounds - 2, by omega⟩
    rw [hn, show n + 2 - 1 = n + 1 by omega, show n + 2 - 2 = n by omega, List.range'_concat, List.reverse_append]
    simp only [List.reverse_cons, List.reverse_nil, List.nil_append, List.cons_append]
    rw [show 1 + 1 * n = n + 1 by omega]
  obtain ⟨t, ht⟩ := hall (List.range' 1 (c.rounds - 2)).reverse (unsubstituteT (quiet Aes.unshiftRows
    (quiet Aes.unmixColumns (quiet (Aes.addKey (c.keys[c.rounds - 1]'(by omega)))
    (unsubstituteT (quiet Aes.unshiftRows (Aes.addKey (c.keys[c.rounds]'(by omega)) b, [])))))))
    (by intro k h; rw [List.mem_reverse, List.mem_range'_1] at h; omega)
  obtain ⟨u, h1, h2⟩ := decRounds_append c _ _ _ ht
  have hfold : (List.range' 1 (c.rounds - 1)).reverse.foldlM (decRoundT c) (unsubstituteT (quiet Aes.unshiftRows
      (Aes.addKey (c.keys[c.rounds]'(by omega)) b, []))) = .ok t := by
    rw [hrange, List.foldlM_cons, ← ht]
    have : decRoundT c (unsubstituteT (quiet Aes.unshiftRows (Aes.addKey (c.keys[c.rounds]'(by omega)) b, [])))
        (c.rounds - 1) = .ok (unsubstituteT (quiet Aes.unshiftRows
          (quiet Aes.unmixColumns (quiet (Aes.addKey (c.keys[c.rounds - 1]'(by omega)))
          (unsubstituteT (quiet Aes.unshiftRows (Aes.addKey (c.keys[c.rounds]'(by omega)) b, []))))))) := by
      unfold decRoundT
      rw [hi (c.rounds - 1) (by omega)]
      rfl
    rw [this]
    rfl
  unfold decryptT
  rw [hi 0 (by omega), hi c.rounds (by omega)]
  simp only [bind, Except.bind, hfold]
  refine ⟨_, _, rfl, ?_⟩
  simp only [quiet, unsubstituteT, h1, List.nil_append, List.append_assoc]
  rw [← List.append_assoc, List.take_append, List.take_of_length_le (by simp)]
  simp

theorem BuiltAes.rounds {c : Aes.Aes} (h : BuiltAes c) : c.rounds = 10 ∨ c.rounds = 12 ∨ c.rounds = 14 := by
  cases h with
  | k128 key _ h =>
    obtain ⟨c', w, h1, h2, _⟩ := with128_spec key
    rw [h] at h1; injection h1 with h1; subst h1; omega
  | k192 key _ h =>
    obtain ⟨c', w, h1, h2, _⟩ := with192_spec key
    rw [h] at h1; injection h1 with h1; subst h1; omega
  | k256 key _ h =>
    obtain ⟨c', w, h1, h2, _⟩ := with256_spec key
    rw [h] at h1; injection h1 with h1; subst h1; omega

/-- C129: AES makes 16 lookups per round, in encryption and decryption, whatever the key and the data are. -/
theorem C129_count {c : Aes.Aes} (hc : BuiltAes c) (b : Vector U8 16) :
    (∃ e tr, encryptT c b = .ok (e, tr) ∧ tr.length = 16 * c.rounds) ∧
    (∃ d tr, decryptT c b = .ok (d, tr) ∧ tr.length = 16 * c.rounds) := by
  have h1 := hc.length
  have h2 := hc.rounds
  obtain ⟨e, tr, a1, a2, _⟩ := encrypt_trace c (by omega) h1 b
  obtain ⟨d, tr', b1, b2, _⟩ := decrypt_trace c h1 (by omega) b
  exact ⟨⟨e, tr, a1, a2⟩, ⟨d, tr', b1, b2⟩⟩

/-- A 192-bit key: 192 lookups. -/
example : ∃ c e tr, Aes.with192 (seqKey 24) = .ok c ∧ encryptT c fipsPlain = .ok (e, tr) ∧ tr.length = 16 * c.rounds := by
  obtain ⟨c, _, h, _⟩ := with192_spec (seqKey 24)
  obtain ⟨e, tr, h1, h2⟩ := (C129_count (.k192 _ c h) fipsPlain).1
  exact ⟨c, e, tr, h, h1, h2⟩

/-- The key is the beginning of the expanded key. -/
theorem key_byte {Nk Nr : Nat} {key : List U8} {w : Nat → Spec.Aes.Word} {keys : List (Vector U8 16)}
    (h : Spec.Aes.KeyExpansion Aes.sub Nk Nr key w)
    (hw : ∀ k (h : k < keys.length), ∀ r c' : Fin 4, (keys[k])[r.val + 4 * c'.val] = w (4 * k + c'.val) r)
    (i : Nat) (hi : i < 4 * Nk) (hl : i / 16 < keys.length) :
    key[i]? = some ((keys[i / 16])[i % 16]'(Nat.mod_lt _ (by decide))) := by
  have h1 := h.init (i / 4) (by omega) ⟨i % 4, by omega⟩
  have h2 := hw (i / 16) hl ⟨i % 4, by omega⟩ ⟨i / 4 % 4, by omega⟩
  simp only at h1 h2
  rw [show 4 * (i / 16) + i / 4 % 4 = i / 4 by omega] at h2
  rw [← h2] at h1
  simpa only [show i % 4 + 4 * (i / 4 % 4) = i % 16 by omega, show 4 * (i / 4) + i % 4 = i by omega] using h1.symm

theorem addKey_inj (k k' s : Vector U8 16) (h : Aes.addKey k s = Aes.addKey k' s) : k = k' := by
  refine Vector.ext fun i hi => ?_
  have := congrArg (fun v : Vector U8 16 => v[i]) h
  simp only [Aes.addKey, Vector.getElem_ofFn, Fin.getElem_fin] at this
  simpa only [BitVec.xor_right_inj] using this

/-- C129: the first 16 places that an encryption reads are the bytes of the plaintext xor those of the key, in all three
sizes of keys. So whoever knows the block and sees these places knows the first 16 bytes of the key: all of a 128-bit key. -/
theorem C129_first_round (b : Vector U8 16) :
    (∀ key : Vector U8 16, ∃ c e tr, Aes.with128 key = .ok c ∧ encryptT c b = .ok (e, tr) ∧
      ∀ i (h : i < 16), tr[i]? = some (b[i] ^^^ key[i])) ∧
    (∀ key : Vector U8 24, ∃ c e tr, Aes.with192 key = .ok c ∧ encryptT c b = .ok (e, tr) ∧
      ∀ i (h : i < 16), tr[i]? = some (b[i] ^^^ key[i])) ∧
    (∀ key : Vector U8 32, ∃ c e tr, Aes.with256 key = .ok c ∧ encryptT c b = .ok (e, tr) ∧
      ∀ i (h : i < 16), tr[i]? = some (b[i] ^^^ key[i])) := by
  have main : ∀ (n : Nat) (hn : 16 ≤ n) (key : Vector U8 n) (c : Aes.Aes) (hr : 2 ≤ c.rounds)
      (hk : c.keys.length = c.rounds + 1)
      (hkey : ∀ i, i < 16 → ∀ h : i / 16 < c.keys.length, key.toList[i]? =
        some ((c.keys[i / 16])[i % 16]'(Nat.mod_lt _ (by decide)))),
      ∃ e tr, encryptT c b = .ok (e, tr) ∧ ∀ i (h : i < 16), tr[i]? = some (b[i] ^^^ key[i]) := by
    intro n hn key c hr hk hkey
    obtain ⟨e, tr, h1, h2, h3⟩ := encrypt_trace c hr hk b
    refine ⟨e, tr, h1, fun i hi => ?_⟩
    have h4 : tr[i]? = (tr.take 32)[i]? := by rw [List.getElem?_take_of_lt (by omega)]
    have h5 := hkey i hi (by omega)
    simp only [Nat.div_eq_of_lt hi, Nat.mod_eq_of_lt hi] at h5
    rw [List.getElem?_eq_getElem (by simp; omega), Vector.getElem_toList] at h5
    rw [h4, h3, List.getElem?_append_left (by simpa using hi), List.getElem?_eq_getElem (by simpa using hi),
      Vector.getElem_toList, Option.some.inj h5]
    simp [Aes.addKey]
  refine ⟨fun key => ?_, fun key => ?_, fun key => ?_⟩
  · obtain ⟨c, w, h1, h2, h3, h4, h5, _⟩ := with128_spec key
    obtain ⟨e, tr, h6, h7⟩ := main 16 (by decide) key c (by omega) (by omega)
      fun i hi hl => key_byte h4 h5 i (by omega) hl
    exact ⟨c, e, tr, h1, h6, h7⟩
  · obtain ⟨c, w, h1, h2, h3, h4, h5, _⟩ := with192_spec key
    obtain ⟨e, tr, h6, h7⟩ := main 24 (by decide) key c (by omega) (by omega)
      fun i hi hl => key_byte h4 h5 i (by omega) hl
    exact ⟨c, e, tr, h1, h6, h7⟩
  · obtain ⟨c, w, h1, h2, h3, h4, h5, _⟩ := with256_spec key
    obtain ⟨e, tr, h6, h7⟩ := main 32 (by decide) key c (by omega) (by omega)
      fun i hi hl => key_byte h4 h5 i (by omega) hl
    exact ⟨c, e, tr, h1, h6, h7⟩

/-- C129: seeing only which lines of the table are read — the places without their lowest `s` bits, for lines of `2 ^ s`
bytes — still reveals the other bits of the first 16 key bytes. -/
theorem C129_lines (b : Vector U8 16) (s : Nat) :
    (∀ key : Vector U8 16, ∃ c e tr, Aes.with128 key = .ok c ∧ encryptT c b = .ok (e, tr) ∧ ∀ i (h : i < 16), ∃ x : U8,
      tr[i]? = some x ∧ BitVec.ushiftRight key[i] s = BitVec.ushiftRight b[i] s ^^^ BitVec.ushiftRight x s) ∧
    (∀ key : Vector U8 24, ∃ c e tr, Aes.with192 key = .ok c ∧ encryptT c b = .ok (e, tr) ∧ ∀ i (h : i < 16), ∃ x : U8,
      tr[i]? = some x ∧ BitVec.ushiftRight key[i] s = BitVec.ushiftRight b[i] s ^^^ BitVec.ushiftRight x s) ∧
    (∀ key : Vector U8 32, ∃ c e tr, Aes.with256 key = .ok c ∧ encryptT c b = .ok (e, tr) ∧ ∀ i (h : i < 16), ∃ x : U8,
      tr[i]? = some x ∧ BitVec.ushiftRight key[i] s = BitVec.ushiftRight b[i] s ^^^ BitVec.ushiftRight x s) := by
  have main : ∀ x k : U8, BitVec.ushiftRight k s = BitVec.ushiftRight x s ^^^ BitVec.ushiftRight (x ^^^ k) s := by
    intro x k
    show k >>> s = (x >>> s) ^^^ ((x ^^^ k) >>> s)
    rw [BitVec.ushiftRight_xor_distrib, ← BitVec.xor_assoc, BitVec.xor_self, BitVec.zero_xor]
  refine ⟨fun key => ?_, fun key => ?_, fun key => ?_⟩
  · obtain ⟨c, e, tr, h1, h2, h3⟩ := (C129_first_round b).1 key
    exact ⟨c, e, tr, h1, h2, fun i hi => ⟨_, h3 i hi, main _ _⟩⟩
  · obtain ⟨c, e, tr, h1, h2, h3⟩ := (C129_first_round b).2.1 key
    exact ⟨c, e, tr, h1, h2, fun i hi => ⟨_, h3 i hi, main _ _⟩⟩
  · obtain ⟨c, e, tr, h1, h2, h3⟩ := (C129_first_round b).2.2 key
    exact ⟨c, e, tr, h1, h2, fun i hi => ⟨_, h3 i hi, main _ _⟩⟩

theorem two_rounds {n Nk Nr : Nat} (hn : n = 4 * Nk) (h32 : n ≤ 32) (key key' : Vector U8 n) (c c' : Aes.Aes)
    (w w' : Nat → Spec.Aes.Word) (b : Vector U8 16) (hr : c.rounds = Nr) (hr' : c'.rounds = Nr) (hNr : 2 ≤ Nr)
    (hl : c.keys.length = Nr + 1) (hl' : c'.keys.length = Nr + 1)
    (h : Spec.Aes.KeyExpansion Aes.sub Nk Nr key.toList w) (h' : Spec.Aes.KeyExpansion Aes.sub Nk Nr key'.toList w')
    (hw : ∀ k (h : k < c.keys.length), ∀ r j : Fin 4, (c.keys[k])[r.val + 4 * j.val] = w (4 * k + j.val) r)
    (hw' : ∀ k (h : k < c'.keys.length), ∀ r j : Fin 4, (c'.keys[k])[r.val + 4 * j.val] = w' (4 * k + j.val) r)
    (e e' : Vector U8 16) (tr tr' : List U8) (ht : encryptT c b = .ok (e, tr)) (ht' : encryptT c' b = .ok (e', tr'))
    (heq : tr.take 32 = tr'.take 32) : key = key' := by
  obtain ⟨_, _, a1, _, a3⟩ := encrypt_trace c (by omega) (by omega) b
  obtain ⟨_, _, b1, _, b3⟩ := encrypt_trace c' (by omega) (by omega) b
  rw [ht] at a1
  rw [ht'] at b1
  cases a1
  cases b1
  rw [a3, b3] at heq
  obtain ⟨e1, e2⟩ := List.append_inj heq (by simp)
  have k0 := addKey_inj _ _ _ (Vector.toList_inj.1 e1)
  rw [k0] at e2
  have k1 := addKey_inj _ _ _ (Vector.toList_inj.1 e2)
  refine Vector.ext fun i hi => ?_
  have g := key_byte h hw i (by omega) (by omega)
  have g' := key_byte h' hw' i (by omega) (by omega)
  rw [List.getElem?_eq_getElem (by simpa using hi), Vector.getElem_toList] at g g'
  have g := Option.some.inj g
  have g' := Option.some.inj g'
  rw [g, g']
  rcases (by omega : i / 16 = 0 ∨ i / 16 = 1) with hz | hz
  · simp only [hz, k0]
  · simp only [hz, k1]

/-- C129: with longer keys the first 32 places, those of two rounds, do: there is a way to compute the key from the block and
these places. -/
theorem C129_key_from_lookups :
    (∃ recover : Vector U8 16 → List U8 → Vector U8 16, ∀ key b c e tr, Aes.with128 key = .ok c →
      encryptT c b = .ok (e, tr) → recover b (tr.take 16) = key) ∧
    (∃ recover : Vector U8 16 → List U8 → Vector U8 24, ∀ key b c e tr, Aes.with192 key = .ok c →
      encryptT c b = .ok (e, tr) → recover b (tr.take 32) = key) ∧
    (∃ recover : Vector U8 16 → List U8 → Vector U8 32, ∀ key b c e tr, Aes.with256 key = .ok c →
      encryptT c b = .ok (e, tr) → recover b (tr.take 32) = key) := by
  classical
  refine ⟨⟨fun b t => Vector.ofFn fun i => b[i] ^^^ t.getD i.val 0#8, ?_⟩, ?_, ?_⟩
  · intro key b c e tr hc ht
    obtain ⟨c', e', tr', h1, h2, h3⟩ := (C129_first_round b).1 key
    rw [hc] at h1
    cases h1
    rw [ht] at h2
    cases h2
    refine Vector.ext fun i hi => ?_
    rw [Vector.getElem_ofFn, List.getD_eq_getElem?_getD, List.getElem?_take_of_lt hi, h3 i hi]
    show b[i] ^^^ (b[i] ^^^ key[i]) = key[i]
    rw [← BitVec.xor_assoc, BitVec.xor_self, BitVec.zero_xor]
  · refine ⟨fun b t => if h : ∃ key c e tr, Aes.with192 key = .ok c ∧ encryptT c b = .ok (e, tr) ∧ tr.take 32 = t then
      h.choose else Vector.replicate 24 0#8, ?_⟩
    intro key b c e tr hc ht
    have hex : ∃ key c e tr', Aes.with192 key = .ok c ∧ encryptT c b = .ok (e, tr') ∧ tr'.take 32 = tr.take 32 :=
      ⟨key, c, e, tr, hc, ht, rfl⟩
    simp only [dif_pos hex]
    obtain ⟨c2, e2, tr2, hc2, ht2, heq⟩ := hex.choose_spec
    obtain ⟨d, w, h1, h2, h3, h4, h5, _⟩ := with192_spec key
    obtain ⟨d', w', h1', h2', h3', h4', h5', _⟩ := with192_spec hex.choose
    rw [hc] at h1
    cases h1
    rw [hc2] at h1'
    cases h1'
    exact two_rounds (by norm_num) (by norm_num) _ _ _ _ w' w b h2' h2 (by norm_num) h3' h3 h4' h4 h5' h5 _ _ _ _ ht2 ht heq
  · refine ⟨fun b t => if h : ∃ key c e tr, Aes.with256 key = .ok c ∧ encryptT c b = .ok (e, tr) ∧ tr.take 32 = t then
      h.choose else Vector.replicate 32 0#8, ?_⟩
    intro key b c e tr hc ht
    have hex : ∃ key c e tr', Aes.with256 key = .ok c ∧ encryptT c b = .ok (e, tr') ∧ tr'.take 32 = tr.take 32 :=
      ⟨key, c, e, tr, hc, ht, rfl⟩
    simp only [dif_pos hex]
    obtain ⟨c2, e2, tr2, hc2, ht2, heq⟩ := hex.choose_spec
    obtain ⟨d, w, h1, h2, h3, h4, h5, _⟩ := with256_spec key
    obtain ⟨d', w', h1', h2', h3', h4', h5', _⟩ := with256_spec hex.choose
    rw [hc] at h1
    cases h1
    rw [hc2] at h1'
    cases h1'
    exact two_rounds (by norm_num) (by norm_num) _ _ _ _ w' w b h2' h2 (by norm_num) h3' h3 h4' h4 h5' h5 _ _ _ _ ht2 ht heq

/-- Two decryptions that read the same places first used the same last two round keys. -/
theorem decrypt_two_keys (c c' : Aes.Aes) (hk : c.keys.length = c.rounds + 1) (hk' : c'.keys.length = c'.rounds + 1)
    (hr : 2 ≤ c.rounds) (hrr : c.rounds = c'.rounds) (b d d' : Vector U8 16) (tr tr' : List U8)
    (ht : decryptT c b = .ok (d, tr)) (ht' : decryptT c' b = .ok (d', tr')) (heq : tr.take 32 = tr'.take 32) :
    c.keys[c.rounds]? = c'.keys[c.rounds]? ∧ c.keys[c.rounds - 1]? = c'.keys[c.rounds - 1]? := by
  obtain ⟨_, _, a1, a3⟩ := decrypt_trace2 c hk hr b
  obtain ⟨_, _, b1, b3⟩ := decrypt_trace2 c' hk' (by omega) b
  rw [ht] at a1
  rw [ht'] at b1
  cases a1
  cases b1
  rw [a3, b3] at heq
  obtain ⟨e1, e2⟩ := List.append_inj heq (by simp)
  have e1 := Vector.toList_inj.1 e1
  have e2 := Vector.toList_inj.1 e2
  rw [e1] at e2
  have e1 := congrArg Aes.shiftRows e1
  rw [Aes.shiftRows_unshiftRows, Aes.shiftRows_unshiftRows] at e1
  have e2 := congrArg Aes.shiftRows e2
  rw [Aes.shiftRows_unshiftRows, Aes.shiftRows_unshiftRows] at e2
  have e2 := congrArg Aes.mixColumns e2
  rw [Aes.mixColumns_unmixColumns, Aes.mixColumns_unmixColumns] at e2
  have k1 := addKey_inj _ _ _ e1
  have k2 := addKey_inj _ _ _ e2
  constructor
  · rw [List.getElem?_eq_getElem (by omega), List.getElem?_eq_getElem (by omega), k1]
    simp only [hrr]
  · rw [List.getElem?_eq_getElem (by omega), List.getElem?_eq_getElem (by omega), k2]
    simp only [hrr]

/-- The places that a decryption reads first, with the ciphertext block, determine a 128-bit key. -/
theorem decrypt_128 (b : Vector U8 16) (key key' : Vector U8 16) (c c' : Aes.Aes) (hc : Aes.with128 key = .ok c)
    (hc' : Aes.with128 key' = .ok c') (d d' : Vector U8 16) (tr tr' : List U8) (ht : decryptT c b = .ok (d, tr))
    (ht' : decryptT c' b = .ok (d', tr')) (heq : tr.take 16 = tr'.take 16) : key = key' := by
  obtain ⟨x, w, h1, h2, h3, _⟩ := with128_spec key
  obtain ⟨x', w', h1', h2', h3', _⟩ := with128_spec key'
  rw [hc] at h1
  cases h1
  rw [hc'] at h1'
  cases h1'
  obtain ⟨_, _, a1, _, a3⟩ := decrypt_trace c (by omega) (by omega) b
  obtain ⟨_, _, b1, _, b3⟩ := decrypt_trace c' (by omega) (by omega) b
  rw [ht] at a1
  rw [ht'] at b1
  cases a1
  cases b1
  rw [a3, b3] at heq
  have e1 := congrArg Aes.shiftRows (Vector.toList_inj.1 heq)
  rw [Aes.shiftRows_unshiftRows, Aes.shiftRows_unshiftRows] at e1
  have k := addKey_inj _ _ _ e1
  refine C70_aes128_round_key_determines_key key key' c c' hc hc' 10 (by decide) ?_
  rw [List.getElem?_eq_getElem (by omega), List.getElem?_eq_getElem (by omega)]
  simp only [h2, h2'] at k
  rw [k]

/-- C129: the places that a decryption reads first determine the key as well, with the ciphertext block: the first 16 a 128-bit
key, the first 32 a longer one. -/
theorem C129_decrypt (b d d' : Vector U8 16) (c c' : Aes.Aes) (tr tr' : List U8) (ht : decryptT c b = .ok (d, tr))
    (ht' : decryptT c' b = .ok (d', tr')) :
    (∀ key key' : Vector U8 16, Aes.with128 key = .ok c → Aes.with128 key' = .ok c' → tr.take 16 = tr'.take 16 → key = key') ∧
    (∀ key key' : Vector U8 24, Aes.with192 key = .ok c → Aes.with192 key' = .ok c' → tr.take 32 = tr'.take 32 → key = key') ∧
    (∀ key key' : Vector U8 32, Aes.with256 key = .ok c → Aes.with256 key' = .ok c' → tr.take 32 = tr'.take 32 → key = key') := by
  refine ⟨fun key key' hc hc' heq => decrypt_128 b key key' c c' hc hc' d d' tr tr' ht ht' heq,
    fun key key' hc hc' heq => ?_, fun key key' hc hc' heq => ?_⟩
  · obtain ⟨x, w, h1, h2, h3, _⟩ := with192_spec key
    obtain ⟨x', w', h1', h2', h3', _⟩ := with192_spec key'
    rw [hc] at h1
    cases h1
    rw [hc'] at h1'
    cases h1'
    obtain ⟨g1, g2⟩ := decrypt_two_keys c c' (by omega) (by omega) (by omega) (by omega) b d d' tr tr' ht ht' heq
    rw [h2] at g1 g2
    exact C70_aes192_two_round_keys_determine_key key key' c c' hc hc' 11 (by decide) g2 g1
  · obtain ⟨x, w, h1, h2, h3, _⟩ := with256_spec key
    obtain ⟨x', w', h1', h2', h3', _⟩ := with256_spec key'
    rw [hc] at h1
    cases h1
    rw [hc'] at h1'
    cases h1'
    obtain ⟨g1, g2⟩ := decrypt_two_keys c c' (by omega) (by omega) (by omega) (by omega) b d d' tr tr' ht ht' heq
    rw [h2] at g1 g2
    exact C70_aes256_two_round_keys_determine_key key key' c c' hc hc' 13 (by decide) g2 g1

/-- The ciphers and records exist: the key and block of FIPS 197, appendix C; the first place that is read is 0x00 (the first
bytes of the key and the block are equal), the second one 0x11 xor 0x01. -/
example : ∃ c e tr, Aes.with128 (seqKey 16) = .ok c ∧ encryptT c fipsPlain = .ok (e, tr) ∧ tr[0]? = some 0x00#8 ∧
    tr[1]? = some 0x10#8 := by
  obtain ⟨c, e, tr, h1, h2, h3⟩ := (C129_first_round fipsPlain).1 (seqKey 16)
  exact ⟨c, e, tr, h1, h2, h3 0 (by decide), h3 1 (by decide)⟩

end Verif.Props
