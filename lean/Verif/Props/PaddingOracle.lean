import Verif.Props.Modes
import Mathlib.Algebra.BigOperators.Group.Finset.Basic
import Mathlib.Data.ZMod.Basic

/-! # C121: what a failed decryption tells

`BlockEncryption::decrypt` panics on bad padding and returns otherwise. Whoever can submit ciphertexts and sees which of the
two happens (or how many bytes come out) learns something about plaintexts. Here: what, exactly. -/

namespace Verif.Props
open Verif Model Spec

/-! ## Vocabulary: an attacker who only sees whether decryption panics -/

/-- All 256 bytes. -/
def allBytes : List U8 := (List.range 256).map (BitVec.ofNat 8)

/-- A byte string with the bits `x` flipped in its last byte. -/
def flipLast (x : U8) (l : List U8) : List U8 := l.dropLast ++ (l.getLast?.map (· ^^^ x)).toList

/-- The attacker's computation for block size `N`: the first byte `d` such that "`d` with the bits `x` flipped is at most `N`"
agrees for all 256 values of `x` with what was seen (`accepted x`). -/
def guessLast (N : Nat) (accepted : U8 → Bool) : Option U8 :=
  allBytes.find? fun d => allBytes.all fun x => accepted x == decide ((d ^^^ x).toNat ≤ N)

/-! ## Helpers -/

theorem mem_allBytes (b : U8) : b ∈ allBytes :=
  List.mem_map.2 ⟨b.toNat, List.mem_range.2 b.isLt, by simp⟩

/-- For even `N` no xor mask maps the numbers `0..=N` to themselves. -/
theorem rigid {N : Nat} (hN : N % 2 = 0) (hN' : N < 256) (d d' : U8)
    (h : ∀ x : U8, (d ^^^ x).toNat ≤ N ↔ (d' ^^^ x).toNat ≤ N) : d = d' := by
  by_contra hne
  have ht : (d ^^^ d').toNat ≠ 0 := by
    intro h0
    apply hne
    have : d ^^^ d' = 0#8 := BitVec.eq_of_toNat_eq (by simpa using h0)
    calc d = d ^^^ d' ^^^ d' := by rw [BitVec.xor_assoc, BitVec.xor_self, BitVec.xor_zero]
      _ = d' := by rw [this, BitVec.zero_xor]
  have hmem : ∀ y, y < N + 1 → y ^^^ (d ^^^ d').toNat < N + 1 := by
    intro y hy
    have h1 := (h (d ^^^ BitVec.ofNat 8 y)).1 (by
      rw [← BitVec.xor_assoc, BitVec.xor_self, BitVec.zero_xor, BitVec.toNat_ofNat, Nat.mod_eq_of_lt (by omega)]
      omega)
    have e : d' ^^^ (d ^^^ BitVec.ofNat 8 y) = BitVec.ofNat 8 y ^^^ (d ^^^ d') := by
      ac_rfl
    rw [e, BitVec.toNat_xor, BitVec.toNat_ofNat, Nat.mod_eq_of_lt (by omega)] at h1
    omega
  have hs : ∑ _y ∈ Finset.range (N + 1), (1 : ZMod 2) = 0 :=
    Finset.sum_involution (fun y _ => y ^^^ (d ^^^ d').toNat) (fun _ _ => by decide)
      (fun y _ _ hy => ht (by
        have := congrArg (y ^^^ ·) hy
        simpa [← Nat.xor_assoc] using this))
      (fun y hy => Finset.mem_range.2 (hmem y (Finset.mem_range.1 hy)))
      (fun y _ => by simp [Nat.xor_assoc])
  rw [Finset.sum_const, Finset.card_range, nsmul_eq_mul, mul_one, ZMod.natCast_eq_zero_iff] at hs
  omega

theorem guessLast_eq {N : Nat} (hN : N % 2 = 0) (hN' : N < 256) (p : U8) (accepted : U8 → Bool)
    (h : ∀ x, accepted x = decide ((p ^^^ x).toNat ≤ N)) : guessLast N accepted = some p := by
  unfold guessLast
  cases hf : allBytes.find? (fun d => allBytes.all fun x => accepted x == decide ((d ^^^ x).toNat ≤ N)) with
  | none =>
    have := List.find?_eq_none.1 hf p (mem_allBytes p)
    simp [h] at this
  | some d =>
    have hd := List.find?_some hf
    rw [List.all_eq_true] at hd
    congr 1
    apply rigid hN hN' d p
    intro x
    have := hd x (mem_allBytes x)
    rw [h x, beq_iff_eq, decide_eq_decide] at this
    exact this.symm

theorem decrypt_total {N : Nat} {c : BlockCipher N} (hc : Invertible c) (b : Vector U8 N) : ∃ o, c.decrypt b = .ok o := by
  have : Finite U8 := Finite.of_injective (fun b : U8 => (⟨b.toNat, b.isLt⟩ : Fin 256)) fun a b h =>
    BitVec.eq_of_toNat_eq (congrArg Fin.val h)
  have : Finite (Vector U8 N) := Finite.of_injective (fun v : Vector U8 N => fun i : Fin N => v[i]) fun a b h =>
    Vector.ext fun i hi => congrFun h ⟨i, hi⟩
  obtain ⟨enc, h1, h2⟩ := invertible_enc hc
  obtain ⟨a, ha⟩ := (Finite.injective_iff_surjective.1 h2) b
  obtain ⟨o, e1, e2⟩ := hc a
  rw [h1, ha] at e1
  cases e1
  exact ⟨a, e2⟩

theorem steps_total {N : Nat} {σ : Type} {step : σ → Vector U8 N → R (Vector U8 N × σ)}
    (h : ∀ s b, ∃ o s', step s b = .ok (o, s')) (s : σ) (bs : List (Vector U8 N)) : ∃ os s', Steps step s bs os s' := by
  induction bs generalizing s with
  | nil => exact ⟨_, _, .nil s⟩
  | cons b bs ih =>
    obtain ⟨o, s1, h1⟩ := h s b
    obtain ⟨os, s', h2⟩ := ih s1
    exact ⟨_, _, .cons h1 h2⟩

theorem steps_append {σ β : Type} {step : σ → β → R (β × σ)} {s s1 s2 : σ} {as bs os ps : List β}
    (h1 : Steps step s as os s1) (h2 : Steps step s1 bs ps s2) : Steps step s (as ++ bs) (os ++ ps) s2 := by
  induction h1 with
  | nil => exact h2
  | cons h _ ih => exact .cons h (ih h2)

/-- CBC encryption, block by block: each output is the encryption of the block xored with the output before it. -/
theorem cbc_outputs {N : Nat} {c : BlockCipher N} {s s' : Vector U8 N} {bs os : List (Vector U8 N)}
    (h : Steps ((cbc N).encryptBlock c) s bs os s') (i : Nat) (hi : i < bs.length) (hi' : i < os.length)
    (hi'' : i < (s :: os).length) : c.encrypt (xorBlock bs[i] (s :: os)[i]) = .ok os[i] := by
  induction h generalizing i with
  | nil => simp at hi
  | @cons s b o s1 bs os s2 h1 h2 ih =>
    have e : c.encrypt (xorBlock b s) = .ok o ∧ s1 = o := by
      cases he : c.encrypt (xorBlock b s) with
      | error e => simp [cbc, he, Except.map] at h1
      | ok v =>
        simp only [cbc, he, Except.map, Except.ok.injEq, Prod.mk.injEq] at h1
        exact ⟨by rw [h1.1], h1.2.symm.trans h1.1⟩
    obtain ⟨e1, rfl⟩ := e
    cases i with
    | zero => exact e1
    | succ i => exact ih i (by simpa using hi) (by simpa using hi') (by simp at hi' ⊢; omega)

theorem flipLast_block {N : Nat} (hN : 1 ≤ N) (x : U8) (v : Vector U8 N) :
    ∃ v' : Vector U8 N, flipLast x v.toList = v'.toList ∧ v'[N - 1] = v[N - 1] ^^^ x := by
  have hl : v.toList ≠ [] := by
    intro h
    have := congrArg List.length h
    simp at this
    omega
  have hlen : (flipLast x v.toList).length = N := by
    unfold flipLast
    rw [List.getLast?_eq_some_getLast hl]
    simp
    omega
  refine ⟨⟨(flipLast x v.toList).toArray, by simpa using hlen⟩, by simp, ?_⟩
  have : (flipLast x v.toList)[N - 1]'(by omega) = v[N - 1] ^^^ x := by
    unfold flipLast
    rw [List.getElem_append_right (by simp)]
    simp [List.getLast?_eq_some_getLast hl, List.getLast_eq_getElem]
  simpa using this

/-! ## C121 -/

/-- C121: the outcome depends on nothing but the last byte that comes out of the mode: if it is at most `N` the call returns
and the number of bytes emitted tells its value, otherwise it panics. -/
theorem C121_verdict {N : Nat} (hN : 1 ≤ N) {σ : Type} (m : Mode N σ) (c : BlockCipher N) (s s' : σ)
    (bs outs : List (Vector U8 N)) (last : Vector U8 N) (h : Steps (m.decryptBlock c) s bs (outs ++ [last]) s') :
    (blockDecrypt m c s (bs.flatMap Vector.toList)).result =
        (if (last[N - 1]).toNat ≤ N then .ok () else .error .explicit) ∧
    ((blockDecrypt m c s (bs.flatMap Vector.toList)).result = .ok () →
      (blockDecrypt m c s (bs.flatMap Vector.toList)).emitted.length + (last[N - 1]).toNat = N * bs.length) := by
  have hl := Steps.length h
  rw [blockDecrypt_steps m c hN bs outs last h]
  by_cases hx : (last[N - 1]).toNat ≤ N
  · rw [if_neg (by omega), if_pos hx]
    refine ⟨rfl, fun _ => ?_⟩
    simp only [List.length_append, List.length_singleton] at hl
    rw [List.length_append, length_flatMap_toList, List.length_take, Vector.length_toList, ← hl, Nat.mul_add,
      Nat.mul_comm outs.length]
    omega
  · rw [if_pos (by omega), if_neg hx]
    exact ⟨rfl, fun h => by cases h⟩

/-- C121, cipher block chaining: let `o` be the ciphertext block that encrypts `p` after the block `prev`. Submit it behind
`prev` with the bits `x` flipped in its last byte (and any blocks before that, under any initial vector): decryption panics
exactly if the last byte of `p` with these bits flipped is more than `N`. -/
theorem C121_cbc_verdict {N : Nat} (hN : 1 ≤ N) (c : BlockCipher N) (hc : Invertible c) (iv p prev o : Vector U8 N)
    (ho : c.encrypt (xorBlock p prev) = .ok o) (front : List (Vector U8 N)) (x : U8) :
    (blockDecrypt (cbc N) c iv (front.flatMap Vector.toList ++ flipLast x prev.toList ++ o.toList)).result =
      if (p[N - 1] ^^^ x).toNat ≤ N then .ok () else .error .explicit := by
  obtain ⟨prev', e1, e2⟩ := flipLast_block hN x prev
  have htot : ∀ (s b : Vector U8 N), ∃ r s', (cbc N).decryptBlock c s b = .ok (r, s') := by
    intro s b
    obtain ⟨r, hr⟩ := decrypt_total hc b
    exact ⟨xorBlock r s, b, by simp only [cbc, hr, Except.map]⟩
  have hd : c.decrypt o = .ok (xorBlock p prev) := by
    obtain ⟨o', h1, h2⟩ := hc (xorBlock p prev)
    rw [ho] at h1
    cases h1
    exact h2
  obtain ⟨os, s1, h1⟩ := steps_total htot iv front
  obtain ⟨r, hr⟩ := decrypt_total hc prev'
  have h2 : Steps ((cbc N).decryptBlock c) s1 [prev', o] ([xorBlock r s1] ++ [xorBlock (xorBlock p prev) prev']) o :=
    .cons (s1 := prev') (by simp only [cbc, hr, Except.map])
      (.cons (s1 := o) (by simp only [cbc, hd, Except.map]) (.nil _))
  have h3 := steps_append h1 h2
  rw [← List.append_assoc] at h3
  have h4 := (C121_verdict hN (cbc N) c iv o _ _ _ h3).1
  have e3 : (front ++ [prev', o]).flatMap Vector.toList =
      front.flatMap Vector.toList ++ flipLast x prev.toList ++ o.toList := by
    rw [e1]; simp
  have e4 : (xorBlock (xorBlock p prev) prev')[N - 1] = p[N - 1] ^^^ x := by
    simp only [xorBlock, Vector.getElem_ofFn, Fin.getElem_fin, e2]
    rw [BitVec.xor_assoc, ← BitVec.xor_assoc (prev[N - 1]), BitVec.xor_self, BitVec.zero_xor]
  rw [e3, e4] at h4
  exact h4

/-- C121, the attack on cipher block chaining: for every block size that is even (8 and 16 are), every invertible cipher and
every message, the last byte of each of its blocks can be computed from the ciphertext and the 256 answers (panic or not) to
two-block ciphertexts made from it. The attacker need not know the initial vector `iv'` that is used for the answers, and of
`iv` only needs to know if the first block is attacked. -/
theorem C121_cbc_attack {N : Nat} (hN : 1 ≤ N) (hN' : N ≤ 255) (heven : N % 2 = 0) (c : BlockCipher N) (hc : Invertible c)
    (iv iv' : Vector U8 N) (plaintext ct : List U8) (hct : ct = (blockEncrypt (cbc N) c iv plaintext).emitted) (i : Nat)
    (hi : i ≤ plaintext.length / N) :
    guessLast N (fun x => (blockDecrypt (cbc N) c iv'
        (flipLast x (((iv.toList ++ ct).drop (N * i)).take N) ++ (ct.drop (N * i)).take N)).result.isOk) =
      (padded N plaintext)[N * i + (N - 1)]? := by
  obtain ⟨bs, tail, e, ht, hb⟩ := exists_chunks hN plaintext
  have ht' : tail.length < N := ht ▸ Nat.mod_lt _ hN
  obtain ⟨last, _, hl⟩ := Pad.pkcsPad_ok ht'
  have htot : ∀ (s b : Vector U8 N), ∃ r s', (cbc N).encryptBlock c s b = .ok (r, s') := by
    intro s b
    obtain ⟨r, hr, _⟩ := hc (xorBlock b s)
    exact ⟨r, r, by simp only [cbc, hr, Except.map]⟩
  obtain ⟨os, s', hs⟩ := steps_total htot iv (bs ++ [last])
  have hlen := Steps.length hs
  rw [List.length_append, List.length_singleton] at hlen
  have hct' : ct = os.flatMap Vector.toList := by
    rw [hct, e, blockEncrypt_steps (cbc N) c bs tail ht' last hl hs]
  have hpad : padded N plaintext = (bs ++ [last]).flatMap Vector.toList := by
    unfold padded
    rw [List.flatMap_append, e, ← e, ← ht, e]
    simp [hl, pkcs7]
  have hib : i < (bs ++ [last]).length := by simp; omega
  have hio : i < os.length := by omega
  have hio' : i < (iv :: os).length := by simp; omega
  have h1 := cbc_outputs hs i hib hio hio'
  have e1 : ((iv.toList ++ ct).drop (N * i)).take N = ((iv :: os)[i]).toList := by
    rw [hct', ← List.flatMap_cons]
    exact take_block _ i hio'
  have e2 : (ct.drop (N * i)).take N = (os[i]).toList := by
    rw [hct']
    exact take_block _ i hio
  have e3 : (padded N plaintext)[N * i + (N - 1)]? = some ((bs ++ [last])[i][N - 1]) := by
    rw [hpad]
    have h := congrArg (fun l => l[N - 1]?) (take_block (bs ++ [last]) i hib)
    rw [List.getElem?_take, if_pos (by omega), List.getElem?_drop] at h
    rw [h]
    simp
  rw [e1, e2, e3]
  apply guessLast_eq heven (by omega)
  intro x
  have := C121_cbc_verdict hN c hc iv' _ _ _ h1 [] x
  rw [List.flatMap_nil, List.nil_append] at this
  rw [this]
  split <;> rename_i h
  · rw [decide_eq_true h]; rfl
  · rw [decide_eq_false h]; rfl

/-- C121, electronic code book: decryption of a single block panics exactly if the last byte of its decryption is more than
`N`; if it does not panic, the number of bytes emitted tells that byte. -/
theorem C121_ecb_verdict {N : Nat} (hN : 1 ≤ N) (c : BlockCipher N) (b o : Vector U8 N) (ho : c.decrypt b = .ok o) :
    ((blockDecrypt (ecb N) c () b.toList).result = .ok () ↔ (o[N - 1]).toNat ≤ N) ∧
    ((blockDecrypt (ecb N) c () b.toList).result = .ok () →
      (blockDecrypt (ecb N) c () b.toList).emitted.length + (o[N - 1]).toNat = N) := by
  have h := C121_verdict hN (ecb N) c () () [b] [] o (.cons (s1 := ()) (by simp [ecb, ho, Except.map]) (.nil _))
  simp only [List.flatMap_cons, List.flatMap_nil, List.append_nil, List.length_singleton, Nat.mul_one] at h
  refine ⟨?_, h.2⟩
  rw [h.1]
  split <;> simp_all

/-- C121: the three block ciphers of the crate meet the hypotheses of the attack for all their keys. -/
theorem C121_ciphers :
    (∀ c, BuiltAes c → Invertible (Aes.cipher c)) ∧ (∀ k, Invertible (Rc2.cipher k)) ∧
    (∀ (key : List U8) (rounds : U8), 1 ≤ key.length → key.length ≤ 255 →
      ∃ k, Rc5.new key rounds = .ok k ∧ Invertible (Rc5.cipher k)) :=
  ⟨fun _ hc b => (C20_aes_inverse hc b).1,
    fun k b => ⟨_, rfl, by show Except.ok _ = _; rw [(C17_rc2_inverse k b).1]⟩,
    fun key rounds h1 h2 => by
      obtain ⟨k, hk, h⟩ := C14_rc5_inverse key h1 h2 rounds
      exact ⟨k, hk, fun b => (h b).1⟩⟩

/-- C121 for AES with any key: the last byte of every block of the padded message. -/
theorem C121_aes_cbc {c : Aes.Aes} (hc : BuiltAes c) (iv iv' : Vector U8 16) (plaintext ct : List U8)
    (hct : ct = (blockEncrypt (cbc 16) (Aes.cipher c) iv plaintext).emitted) (i : Nat) (hi : i ≤ plaintext.length / 16) :
    guessLast 16 (fun x => (blockDecrypt (cbc 16) (Aes.cipher c) iv'
        (flipLast x (((iv.toList ++ ct).drop (16 * i)).take 16) ++ (ct.drop (16 * i)).take 16)).result.isOk) =
      (padded 16 plaintext)[16 * i + 15]? :=
  C121_cbc_attack (by decide) (by decide) (by decide) _ (C121_ciphers.1 c hc) iv iv' plaintext ct hct i hi

/-- The attack, carried out on the second block of a message with a toy cipher of block size 4. -/
example : (blockEncrypt (cbc 4) (revCipher 4) #v[9, 8, 7, 6] [1, 2, 4, 3, 7, 8]).emitted = [5, 3, 10, 8, 10, 8, 11, 2] ∧
    guessLast 4 (fun x => (blockDecrypt (cbc 4) (revCipher 4) #v[0, 0, 0, 0]
      (flipLast x [5, 3, 10, 8] ++ [10, 8, 11, 2])).result.isOk) = some 2 ∧
    guessLast 4 (fun x => (blockDecrypt (cbc 4) (revCipher 4) #v[0, 0, 0, 0]
      (flipLast x [9, 8, 7, 6] ++ [5, 3, 10, 8])).result.isOk) = some 3 := by
  refine ⟨by decide +kernel, by decide +kernel, by decide +kernel⟩
example : padded 4 [1, 2, 4, 3, 7, 8] = [1, 2, 4, 3, 7, 8, 2, 2] := by decide
/-- Evenness is needed: with blocks of 255 bytes no last byte is too large, and nothing can be learnt. -/
example (o : U8) : o.toNat ≤ 255 := by omega

/-- C121 applied. -/
example : guessLast 4 (fun x => (blockDecrypt (cbc 4) (revCipher 4) #v[0, 0, 0, 0] (flipLast x
      ((([9, 8, 7, 6] ++ (blockEncrypt (cbc 4) (revCipher 4) #v[9, 8, 7, 6] [1, 2, 4, 3, 7, 8]).emitted).drop (4 * 1)).take 4) ++
      ((blockEncrypt (cbc 4) (revCipher 4) #v[9, 8, 7, 6] [1, 2, 4, 3, 7, 8]).emitted.drop (4 * 1)).take 4)).result.isOk) =
    (padded 4 [1, 2, 4, 3, 7, 8])[7]? :=
  C121_cbc_attack (by decide) (by decide) (by decide) (revCipher 4) (revCipher_invertible 4) #v[9, 8, 7, 6] #v[0, 0, 0, 0] _ _ rfl
    1 (by decide)
example (x : U8) : (blockDecrypt (cbc 4) (revCipher 4) #v[0, 0, 0, 0]
      ([#v[3, 3, 3, 3]].flatMap Vector.toList ++ flipLast x [5, 3, 10, 8] ++ [10, 8, 11, 2])).result =
    if ((2 : U8) ^^^ x).toNat ≤ 4 then .ok () else .error .explicit :=
  C121_cbc_verdict (by decide) (revCipher 4) (revCipher_invertible 4) #v[0, 0, 0, 0] #v[7, 8, 2, 2] #v[5, 3, 10, 8] #v[10, 8, 11, 2]
    (by decide +kernel) [#v[3, 3, 3, 3]] x
example : (blockDecrypt (ecb 4) (revCipher 4) () [3, 0, 0, 9]).emitted.length + 3 = 4 ∧
    (blockDecrypt (ecb 4) (revCipher 4) () [3, 0, 0, 9]).result = .ok () :=
  have h := C121_ecb_verdict (by decide) (revCipher 4) #v[3, 0, 0, 9] #v[9, 0, 0, 3] (by decide +kernel)
  ⟨h.2 (h.1.2 (by decide)), h.1.2 (by decide)⟩
example : (blockDecrypt (ecb 4) (revCipher 4) () ([#v[1, 2, 3, 4], #v[5, 0, 0, 9]].flatMap Vector.toList)).result =
    .error .explicit :=
  (C121_verdict (by decide) (ecb 4) (revCipher 4) () () [#v[1, 2, 3, 4], #v[5, 0, 0, 9]] [#v[4, 3, 2, 1]] #v[9, 0, 0, 5]
    (.cons (s1 := ()) (by decide +kernel) (.cons (s1 := ()) (by decide +kernel) (.nil _)))).1

end Verif.Props
