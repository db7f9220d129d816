import Verif.Proof.Lib

/-! # Properties C01–C10: padding, block encryption, stream encryption -/

namespace Verif.Props
open Verif Model Spec

/-! Two small ciphers used only to show that hypotheses can be met. -/

/-- Example cipher: reverse the block. -/
def revCipher (N : Nat) : BlockCipher N := ⟨fun b => .ok b.reverse, fun b => .ok b.reverse⟩
/-- Example cipher: a "cipher" that always panics on the all-zero block. -/
def fussyCipher (N : Nat) : BlockCipher N :=
  ⟨fun b => if b = Vector.replicate N 0#8 then .error .assertion else .ok b,
   fun b => if b = Vector.replicate N 0#8 then .error .assertion else .ok b⟩

theorem revCipher_invertible (N : Nat) : Invertible (revCipher N) := fun b => ⟨b.reverse, rfl, by
  show Except.ok b.reverse.reverse = _
  rw [Vector.reverse_reverse]⟩

/-! ## C01 -/

theorem ecb_lawful {N : Nat} {c : BlockCipher N} (h : Invertible c) :
    Lawful ((ecb N).encryptBlock c) ((ecb N).decryptBlock c) (fun _ _ => True) where
  step s t b _ := by
    obtain ⟨o, h1, h2⟩ := h b
    exact ⟨o, (), (), by simp [ecb, h1, Except.map], by simp [ecb, h2, Except.map], trivial⟩

/-- C01: ECB round trip, for every block size 1..=255, every invertible cipher, every plaintext. -/
theorem C01_ecb_roundtrip {N : Nat} (hN : 1 ≤ N) (hN' : N ≤ 255) (c : BlockCipher N) (hc : Invertible c)
    (plaintext : List U8) :
    (blockEncrypt (ecb N) c () plaintext).result = .ok () ∧
    blockDecrypt (ecb N) c () (blockEncrypt (ecb N) c () plaintext).emitted = ⟨plaintext, .ok ()⟩ := by
  have h := roundtrip_iff hN (ecb_lawful hc) (s := ()) (t := ()) trivial plaintext
  exact ⟨h.1, h.2.2 (by omega)⟩

example : 1 ≤ 16 ∧ 16 ≤ 255 ∧ Invertible (revCipher 16) := ⟨by decide, by decide, revCipher_invertible 16⟩
example : (blockEncrypt (ecb 4) (revCipher 4) () [1, 2, 4, 3, 7, 8]).emitted = [3, 4, 2, 1, 2, 2, 8, 7] := by
  decide +kernel

/-! ## C02 -/

/-- C02: round trip for every lawful stateful mode. The encrypting and the decrypting mode object may be
of different types; their states only have to correspond. -/
theorem C02_mode_roundtrip {N : Nat} (hN : 1 ≤ N) (hN' : N ≤ 255) {σ τ : Type} (c : BlockCipher N)
    (encMode : Mode N σ) (decMode : Mode N τ) (Rel : σ → τ → Prop)
    (hlaw : Lawful (encMode.encryptBlock c) (decMode.decryptBlock c) Rel)
    (s : σ) (t : τ) (hst : Rel s t) (plaintext : List U8) :
    (blockEncrypt encMode c s plaintext).result = .ok () ∧
    blockDecrypt decMode c t (blockEncrypt encMode c s plaintext).emitted = ⟨plaintext, .ok ()⟩ := by
  have h := roundtrip_iff hN hlaw hst plaintext
  exact ⟨h.1, h.2.2 (by omega)⟩

theorem xorBlock_cancel {N : Nat} (a b : Vector U8 N) : xorBlock (xorBlock a b) b = a := by
  apply Vector.ext
  intro i hi
  simp [xorBlock, BitVec.xor_assoc]

theorem cbc_lawful {N : Nat} {c : BlockCipher N} (h : Invertible c) :
    Lawful ((cbc N).encryptBlock c) ((cbc N).decryptBlock c) Eq where
  step s t b e := by
    subst e
    obtain ⟨o, h1, h2⟩ := h (xorBlock b s)
    exact ⟨o, o, o, by simp [cbc, h1, Except.map], by simp [cbc, h2, Except.map, xorBlock_cancel], rfl⟩

/-- C02, instance: cipher block chaining with any initialisation vector. -/
theorem C02_cbc_roundtrip {N : Nat} (hN : 1 ≤ N) (hN' : N ≤ 255) (c : BlockCipher N) (hc : Invertible c)
    (iv : Vector U8 N) (plaintext : List U8) :
    (blockEncrypt (cbc N) c iv plaintext).result = .ok () ∧
    blockDecrypt (cbc N) c iv (blockEncrypt (cbc N) c iv plaintext).emitted = ⟨plaintext, .ok ()⟩ :=
  C02_mode_roundtrip hN hN' c _ _ Eq (cbc_lawful hc) iv iv rfl plaintext

example : (blockEncrypt (cbc 4) (revCipher 4) #v[9, 8, 7, 6] [1, 2, 4, 3, 7, 8]).emitted
    = [5, 3, 10, 8, 10, 8, 11, 2] := by decide +kernel
example : blockDecrypt (cbc 4) (revCipher 4) #v[9, 8, 7, 6] [5, 3, 10, 8, 10, 8, 11, 2]
    = ⟨[1, 2, 4, 3, 7, 8], .ok ()⟩ := by decide +kernel

/-! ## C03 -/

/-- C03: for every plaintext, cut as full blocks followed by less than a block, and every mode that does
not panic on those blocks: the emitted bytes are the outputs of the mode for the full blocks and the
PKCS#7-completed last one, strictly in order. -/
theorem C03_layout {N : Nat} {σ : Type} (m : Mode N σ) (c : BlockCipher N) (s s' : σ)
    (blocks : List (Vector U8 N)) (tail : List U8) (htail : tail.length < N)
    (last : Vector U8 N) (hlast : last.toList = pkcs7 N tail)
    (outs : List (Vector U8 N)) (hsteps : Steps (m.encryptBlock c) s (blocks ++ [last]) outs s') :
    blockEncrypt m c s (blocks.flatMap Vector.toList ++ tail) =
      ⟨outs.flatMap Vector.toList, .ok ()⟩ :=
  blockEncrypt_steps m c blocks tail htail last hlast hsteps

/-- C03: every plaintext has such a cut, so `C03_layout` covers every plaintext, and for a mode that never
panics the emitted length is `(len / N + 1) * N`. -/
theorem C03_length {N : Nat} (hN : 1 ≤ N) {σ : Type} (m : Mode N σ) (c : BlockCipher N) (s : σ)
    (htotal : ∀ s b, ∃ o s', m.encryptBlock c s b = .ok (o, s')) (plaintext : List U8) :
    (blockEncrypt m c s plaintext).result = .ok () ∧
    (blockEncrypt m c s plaintext).emitted.length = (plaintext.length / N + 1) * N := by
  obtain ⟨bs, tail, e, ht, hb⟩ := exists_chunks hN plaintext
  have ht' : tail.length < N := ht ▸ Nat.mod_lt _ hN
  obtain ⟨last, _, hl⟩ := Pad.pkcsPad_ok ht'
  rcases steps_or_panic (m.encryptBlock c) s (bs ++ [last]) with ⟨os, s', h⟩ | ⟨_, b, _, _, s', er, _, _, h⟩
  · rw [e, blockEncrypt_steps m c bs tail ht' last hl h, ← e]
    refine ⟨rfl, ?_⟩
    rw [length_flatMap_toList, Steps.length h, List.length_append, hb]
    rfl
  · obtain ⟨o, s2, h2⟩ := htotal s' b
    rw [h2] at h
    cases h

/-- C03 for ECB, block by block: with `enc` the cipher's (total) encryption, the ciphertext is the
concatenation of `enc` of each full plaintext block and `enc` of the padded rest. -/
theorem C03_ecb_layout {N : Nat} (c : BlockCipher N) (enc : Vector U8 N → Vector U8 N)
    (henc : ∀ b, c.encrypt b = .ok (enc b))
    (blocks : List (Vector U8 N)) (tail : List U8) (htail : tail.length < N)
    (last : Vector U8 N) (hlast : last.toList = pkcs7 N tail) :
    blockEncrypt (ecb N) c () (blocks.flatMap Vector.toList ++ tail) =
      ⟨(blocks.map enc).flatMap Vector.toList ++ (enc last).toList, .ok ()⟩ := by
  have hs : ∀ bs : List (Vector U8 N), Steps ((ecb N).encryptBlock c) () bs (bs.map enc) () := by
    intro bs
    induction bs with
    | nil => exact .nil ()
    | cons b bs ih => exact .cons (s1 := ()) (by simp [ecb, henc, Except.map]) ih
  have := blockEncrypt_steps (ecb N) c blocks tail htail last hlast (hs (blocks ++ [last]))
  rw [this]
  simp

/-- C03, panicking ciphers: if the mode panics at some block, exactly the outputs of the blocks before it
have been emitted. -/
theorem C03_panic {N : Nat} {σ : Type} (m : Mode N σ) (c : BlockCipher N) (s s' : σ)
    (blocks : List (Vector U8 N)) (tail : List U8) (htail : tail.length < N)
    (last : Vector U8 N) (hlast : last.toList = pkcs7 N tail)
    (pre post : List (Vector U8 N)) (b : Vector U8 N) (e : Panic) (outs : List (Vector U8 N))
    (hcut : blocks ++ [last] = pre ++ b :: post)
    (hsteps : Steps (m.encryptBlock c) s pre outs s') (hpanic : m.encryptBlock c s' b = .error e) :
    blockEncrypt m c s (blocks.flatMap Vector.toList ++ tail) = ⟨outs.flatMap Vector.toList, .error e⟩ := by
  rcases List.eq_nil_or_concat post with rfl | ⟨post', z, rfl⟩
  · have h : blocks ++ [last] = pre ++ [b] := hcut
    obtain ⟨rfl, h2⟩ := List.append_inj' h rfl
    cases h2
    exact blockEncrypt_panic_last m c tail htail _ _ hlast hsteps hpanic
  · have h : blocks ++ [last] = (pre ++ b :: post') ++ [z] := by rw [hcut]; simp
    obtain ⟨rfl, _⟩ := List.append_inj' h rfl
    exact blockEncrypt_panic_block m c tail htail pre post' hsteps hpanic

example : blockEncrypt (ecb 4) (revCipher 4) () ([#v[1, 2, 4, 3]].flatMap Vector.toList ++ [7, 8])
    = ⟨[3, 4, 2, 1, 2, 2, 8, 7], .ok ()⟩ := by decide +kernel
example : blockEncrypt (ecb 2) (fussyCipher 2) () [1, 2, 0, 0, 5] = ⟨[1, 2], .error .assertion⟩ := by
  decide +kernel

/-! ## C04 -/

/-- C04: everything `BlockEncryption::decrypt` can do, on every byte string, for every mode and cipher
(also ones that panic). The four cases are mutually exclusive and there is no other. -/
theorem C04_decrypt_behaviour {N : Nat} (hN : 1 ≤ N) {σ : Type} (m : Mode N σ) (c : BlockCipher N) (s : σ)
    (ciphertext : List U8) :
    (ciphertext.length % N ≠ 0 ∧ blockDecrypt m c s ciphertext = ⟨[], .error .explicit⟩) ∨
    (ciphertext = [] ∧ blockDecrypt m c s ciphertext = ⟨[], .error .unwrap⟩) ∨
    (∃ blocks outs last s', ciphertext = blocks.flatMap Vector.toList ∧
      Steps (m.decryptBlock c) s blocks (outs ++ [last]) s' ∧
      ((N < (last[N - 1]).toNat ∧
          blockDecrypt m c s ciphertext = ⟨outs.flatMap Vector.toList, .error .explicit⟩) ∨
       ((last[N - 1]).toNat ≤ N ∧
          blockDecrypt m c s ciphertext =
            ⟨((outs ++ [last]).flatMap Vector.toList).take ((outs.length + 1) * N - (last[N - 1]).toNat),
             .ok ()⟩))) ∨
    (∃ pre b post outs s' e, ciphertext = (pre ++ b :: post).flatMap Vector.toList ∧
      Steps (m.decryptBlock c) s pre outs s' ∧ m.decryptBlock c s' b = .error e ∧
      blockDecrypt m c s ciphertext = ⟨outs.dropLast.flatMap Vector.toList, .error e⟩) := by
  by_cases hlen : ciphertext.length % N = 0
  · obtain ⟨bs, tail, e, ht, hb⟩ := exists_chunks hN ciphertext
    rw [hlen] at ht
    have htail : tail = [] := List.length_eq_zero_iff.1 ht
    subst htail
    rw [List.append_nil] at e
    rcases steps_or_panic (m.decryptBlock c) s bs with ⟨os, s', h⟩ | ⟨pre, b, post, os, s', er, rfl, h1, h2⟩
    · rcases List.eq_nil_or_concat os with rfl | ⟨os', last, rfl⟩
      · right; left
        have : bs.length = 0 := by rw [← Steps.length h]; rfl
        have : bs = [] := List.length_eq_zero_iff.1 this
        subst this
        simp at e
        subst e
        exact ⟨rfl, blockDecrypt_empty m c hN s⟩
      · right; right; left
        rw [List.concat_eq_append] at h
        refine ⟨bs, os', last, s', e, h, ?_⟩
        have hd := blockDecrypt_steps m c hN bs os' last h
        rw [← e] at hd
        by_cases hx : N < (last[N - 1]).toNat
        · left; rw [if_pos hx] at hd; exact ⟨hx, hd⟩
        · right
          rw [if_neg hx] at hd
          refine ⟨by omega, ?_⟩
          rw [hd]
          congr 1
          have hl : (os'.flatMap Vector.toList).length = os'.length * N := length_flatMap_toList os'
          rw [List.flatMap_append, List.take_append, List.take_of_length_le (i := (os'.length + 1) * N - _)]
          · rw [hl]
            have : (os'.length + 1) * N - (last[N - 1]).toNat - os'.length * N = N - (last[N - 1]).toNat := by
              rw [Nat.add_mul]; omega
            rw [this]; simp
          · rw [hl, Nat.add_mul]; omega
    · right; right; right
      exact ⟨pre, b, post, os, s', er, e, h1, h2, e ▸ blockDecrypt_panic_block m c hN pre post h1 h2⟩
  · left
    exact ⟨hlen, blockDecrypt_badLength m c hN s ciphertext hlen⟩

example : blockDecrypt (ecb 4) (revCipher 4) () [1, 2, 3, 4, 5] = ⟨[], .error .explicit⟩ := by decide +kernel
example : blockDecrypt (ecb 4) (revCipher 4) () [] = ⟨[], .error .unwrap⟩ := by decide +kernel
example : blockDecrypt (ecb 4) (revCipher 4) () [1, 2, 3, 4, 5, 0, 0, 0] = ⟨[4, 3, 2, 1], .error .explicit⟩ := by
  decide +kernel
example : blockDecrypt (ecb 4) (revCipher 4) () [1, 2, 3, 4, 3, 0, 0, 9] = ⟨[4, 3, 2, 1, 9], .ok ()⟩ := by
  decide +kernel
example : blockDecrypt (ecb 2) (fussyCipher 2) () [1, 1, 2, 2, 0, 0, 5, 5] = ⟨[1, 1], .error .assertion⟩ := by
  decide +kernel

/-! ## C05, C06, C07 -/

/-- C05: `pad` completes the block PKCS#7-style and `unpad` finds the length again. -/
theorem C05_pkcs_roundtrip {N : Nat} (hN : N ≤ 255) (input : List U8) (h : input.length < N) :
    ∃ block, Pad.pkcsPad N input = .ok block ∧ block.toList = pkcs7 N input ∧
      Pad.pkcsUnpad N block = .ok input.length := by
  obtain ⟨v, hv, hl⟩ := Pad.pkcsPad_ok h
  refine ⟨v, hv, hl, ?_⟩
  have hlast : v[N - 1] = BitVec.ofNat 8 (N - input.length) :=
    Pad.last_of_toList v _ hl (by omega) (Pad.pkcs7_last h)
  rw [Pad.pkcsUnpad_of_last (by omega), hlast, BitVec.toNat_ofNat, Nat.mod_eq_of_lt (by omega),
    if_neg (by omega)]
  congr 1; omega

/-- C05: `pad` panics exactly on inputs of a block or more. -/
theorem C05_pkcs_pad_panics (N : Nat) (input : List U8) :
    (∃ e, Pad.pkcsPad N input = .error e) ↔ N ≤ input.length := by
  constructor
  · rintro ⟨e, h⟩
    apply Nat.le_of_not_lt
    intro hlt
    obtain ⟨v, hv, _⟩ := Pad.pkcsPad_ok hlt
    rw [hv] at h; cases h
  · intro h; exact ⟨_, Pad.pkcsPad_error h⟩

example : Pad.pkcsPad 4 [1, 2] = .ok #v[1, 2, 2, 2] := by decide +kernel
example : Pad.pkcsUnpad 4 #v[1, 2, 2, 2] = .ok 2 := by decide +kernel

/-- C06 is false of the code: a block that is not validly padded is accepted. -/
theorem C06_false : ¬ ∀ (N : Nat) (block : Vector U8 N) (len : Nat),
    Pad.pkcsUnpad N block = .ok len → ValidPkcs7 block.toList (N - len) := by
  intro h
  have h1 := h 4 #v[1, 2, 3, 0] 4 (by decide +kernel)
  obtain ⟨h2, _⟩ := h1
  simp at h2

/-- C06: not only the count zero, also wrong bytes before the last one are accepted. -/
theorem C06_false_wrong_bytes : Pad.pkcsUnpad 4 #v[1, 9, 8, 3] = .ok 1 ∧
    ∀ k, ¬ ValidPkcs7 [1, 9, 8, 3] k := by
  refine ⟨by decide +kernel, ?_⟩
  rintro k ⟨h1, h2, front, h3⟩
  have hlen := congrArg List.length h3
  simp at hlen
  have hk : k ≤ 4 := by omega
  have hlast := congrArg List.getLast? h3
  have : k = 3 := by
    rw [List.getLast?_append, List.getLast?_replicate, if_neg (by omega)] at hlast
    simp at hlast
    have := congrArg BitVec.toNat hlast
    simp at this
    omega
  subst this
  match front, hlen with
  | [a], _ => simp [List.replicate] at h3

/-- C06, what does hold (partial: the acceptance test looks at the last byte only). `unpad` accepts a
block exactly when its last byte is at most `N`, and then returns `N` minus that byte. -/
theorem C06_unpad_accepts_partial {N : Nat} (hN : 1 ≤ N) (block : Vector U8 N) (len : Nat) :
    Pad.pkcsUnpad N block = .ok len ↔ (block[N - 1]).toNat ≤ N ∧ len = N - (block[N - 1]).toNat := by
  rw [Pad.pkcsUnpad_of_last hN]
  constructor
  · intro h
    split at h
    · cases h
    · cases h; exact ⟨by omega, rfl⟩
  · rintro ⟨h1, rfl⟩
    rw [if_neg (by omega)]

/-- C06, the other direction does hold: valid padding is always accepted and measured correctly. -/
theorem C06_unpad_valid_partial {N : Nat} (block : Vector U8 N) (k : Nat)
    (h : ValidPkcs7 block.toList k) : Pad.pkcsUnpad N block = .ok (N - k) := by
  obtain ⟨h1, h2, front, h3⟩ := h
  have hlen := congrArg List.length h3
  simp at hlen
  have : block[N - 1]'(by omega) = BitVec.ofNat 8 k := by
    apply Pad.last_of_toList block _ h3 (by omega)
    rw [List.getElem?_append_right (by omega), List.getElem?_replicate, if_pos (by omega)]
  rw [Pad.pkcsUnpad_of_last (by omega), this, BitVec.toNat_ofNat, Nat.mod_eq_of_lt (by omega),
    if_neg (by omega)]

example : ValidPkcs7 [1, 2, 2, 2] 2 := ⟨by decide, by decide, [1, 2], rfl⟩

/-- C07: for every block size and every lawful mode, decrypting the encryption gives the plaintext back if
and only if the number of padding bytes fits in a byte. -/
theorem C07_exact_limit {N : Nat} (hN : 1 ≤ N) {σ τ : Type} (c : BlockCipher N)
    (encMode : Mode N σ) (decMode : Mode N τ) (Rel : σ → τ → Prop)
    (hlaw : Lawful (encMode.encryptBlock c) (decMode.decryptBlock c) Rel)
    (s : σ) (t : τ) (hst : Rel s t) (plaintext : List U8) :
    blockDecrypt decMode c t (blockEncrypt encMode c s plaintext).emitted = ⟨plaintext, .ok ()⟩ ↔
      N - plaintext.length % N ≤ 255 :=
  (roundtrip_iff hN hlaw hst plaintext).2

/-- C07 for ECB. -/
theorem C07_exact_limit_ecb {N : Nat} (hN : 1 ≤ N) (c : BlockCipher N) (hc : Invertible c)
    (plaintext : List U8) :
    blockDecrypt (ecb N) c () (blockEncrypt (ecb N) c () plaintext).emitted = ⟨plaintext, .ok ()⟩ ↔
      N - plaintext.length % N ≤ 255 :=
  C07_exact_limit hN c _ _ _ (ecb_lawful hc) () () trivial plaintext

/-- Both sides of C07 occur: block size 256, one byte of plaintext against none. -/
example : (256 - [7].length % 256 ≤ 255) ∧ ¬ (256 - ([] : List U8).length % 256 ≤ 255) := by decide

/-! ## C08 -/

/-- C08: `unpad` undoes `pad`, whatever the input contains. -/
theorem C08_bit_roundtrip {N : Nat} (input : List U8) (h : input.length < N) :
    ∃ block zeroFilled, Pad.bitPad N input = .ok block ∧
      block.toList = input ++ 0x80#8 :: List.replicate (N - input.length - 1) 0#8 ∧
      Pad.bitUnpad N block = .ok (zeroFilled, input.length) ∧
      zeroFilled.toList = input ++ List.replicate (N - input.length) 0#8 := by
  have hpad : Pad.bitPad N input = .ok (Vector.ofFn fun i =>
      if h : i.val < input.length then input[i.val] else if i.val = input.length then 0x80#8 else 0#8) := by
    rw [Pad.bitPad, if_neg (by omega)]
  have hl : (Vector.ofFn (n := N) fun i => if h : i.val < input.length then input[i.val] else
      if i.val = input.length then 0x80#8 else 0#8).toList =
      input ++ 0x80#8 :: List.replicate (N - input.length - 1) 0#8 := by
    apply List.ext_getElem
    · simp; omega
    · intro i h1 h2
      simp only [Vector.getElem_toList, Vector.getElem_ofFn]
      by_cases hi : i < input.length
      · simp [hi, List.getElem_append_left]
      · rw [List.getElem_append_right (by omega), List.getElem_cons]
        by_cases hi' : i = input.length
        · simp [hi']
        · have : i - input.length ≠ 0 := by omega
          simp [hi, hi', this]
  refine ⟨_, (Vector.ofFn fun i => if i.val < input.length then
      (Vector.ofFn (n := N) fun i => if h : i.val < input.length then input[i.val] else
      if i.val = input.length then 0x80#8 else 0#8)[i] else 0#8), hpad, hl, ?_, ?_⟩
  · have : Pad.rposition (· == 0x80#8) (input ++ 0x80#8 :: List.replicate (N - input.length - 1) 0#8)
        = some input.length := by
      rw [Pad.rposition_some]
      refine ⟨input, 0x80#8, _, rfl, rfl, by decide, ?_⟩
      intro y hy
      rw [List.eq_of_mem_replicate hy]; decide
    simp only [Pad.bitUnpad, hl, this]
  · apply List.ext_getElem
    · simp; omega
    · intro i h1 h2
      simp only [Vector.getElem_toList, Vector.getElem_ofFn]
      by_cases hi : i < input.length
      · simp [hi, List.getElem_append_left]
      · simp [hi, List.getElem_append_right (Nat.le_of_not_lt hi)]

/-- C08: `pad` panics exactly on inputs of a block or more. -/
theorem C08_bit_pad_panics (N : Nat) (input : List U8) :
    (∃ e, Pad.bitPad N input = .error e) ↔ N ≤ input.length := by
  unfold Pad.bitPad
  split <;> simp [*]

/-- C08: `unpad` panics exactly when there is no marker byte. -/
theorem C08_bit_unpad_panics {N : Nat} (block : Vector U8 N) :
    (∃ e, Pad.bitUnpad N block = .error e) ↔ 0x80#8 ∉ block.toList := by
  unfold Pad.bitUnpad
  have h := Pad.rposition_none (· == 0x80#8) block.toList
  split
  · rename_i hn
    have := h.1 hn
    simp only [Except.error.injEq, exists_eq', true_iff]
    intro hm
    have := this _ hm
    simp at this
  · rename_i len hs
    simp only [reduceCtorEq, exists_false, false_iff, Decidable.not_not]
    obtain ⟨pre, x, post, e, _, hx, _⟩ := (Pad.rposition_some _ _ _).1 hs
    have : x = 0x80#8 := by simpa using hx
    rw [e, this]; simp

/-- C08: otherwise it cuts at the last marker byte and clears the rest. -/
theorem C08_bit_unpad {N : Nat} (block : Vector U8 N) (front rest : List U8)
    (h : block.toList = front ++ 0x80#8 :: rest) (hrest : 0x80#8 ∉ rest) :
    ∃ out, Pad.bitUnpad N block = .ok (out, front.length) ∧
      out.toList = front ++ List.replicate (N - front.length) 0#8 := by
  have hs : Pad.rposition (· == 0x80#8) block.toList = some front.length := by
    rw [Pad.rposition_some]
    refine ⟨front, 0x80#8, rest, h, rfl, by decide, ?_⟩
    intro y hy
    have : y ≠ 0x80#8 := fun e => hrest (e ▸ hy)
    simp [this]
  refine ⟨_, by simp only [Pad.bitUnpad, hs]; rfl, ?_⟩
  have hlen := congrArg List.length h
  simp at hlen
  apply List.ext_getElem
  · simp; omega
  · intro i h1 h2
    simp only [Vector.getElem_toList, Vector.getElem_ofFn]
    by_cases hi : i < front.length
    · rw [List.getElem_append_left hi, if_pos hi]
      have h3 : block.toList[i]'(by simp; omega) = front[i] := by
        simp only [h]; rw [List.getElem_append_left hi]
      simpa using h3
    · simp [hi, List.getElem_append_right (Nat.le_of_not_lt hi)]

example : Pad.bitPad 5 [1, 0x80] = .ok #v[1, 0x80, 0x80, 0, 0] := by decide +kernel
example : Pad.bitUnpad 5 #v[1, 0x80, 0x80, 0, 7] = .ok (#v[1, 0x80, 0, 0, 0], 2) := by decide +kernel

/-! ## C09, C10 -/

/-- Encrypting several pieces one after the other through the same `StreamCipher`. -/
def encryptPieces {σ : Type} (next : KeyIter σ) : σ → List (List U8) → StreamRun σ
  | s, [] => ⟨[], s, .ok ()⟩
  | s, p :: ps =>
    match streamEncrypt next s p with
    | ⟨out, s', .error e⟩ => ⟨out, s', .error e⟩
    | ⟨out, s', .ok _⟩ =>
      let r := encryptPieces next s' ps
      ⟨out ++ r.yielded, r.keys, r.result⟩

/-- C09: for every key iterator and every way of cutting the message into pieces, the pieces encrypted in
sequence give what the whole message gives: same bytes, same final key position, same panic if any. -/
theorem C09_split {σ : Type} (next : KeyIter σ) (s : σ) (pieces : List (List U8)) :
    encryptPieces next s pieces = streamEncrypt next s pieces.flatten := by
  induction pieces generalizing s with
  | nil => rfl
  | cons p ps ih =>
    simp only [encryptPieces, List.flatten_cons]
    rcases h : streamEncrypt next s p with ⟨out, s', r⟩
    cases r with
    | error e =>
      simp only
      rw [streamEncrypt_append_fail s p _ (e := e) (by rw [h]), h]
    | ok u =>
      simp only
      rw [streamEncrypt_append s p _ (by rw [h]), h, ih]

/-- C10: with enough key bytes `ks`, the output is the byte-wise xor, of the same length, without panic. -/
theorem C10_xor {σ : Type} (next : KeyIter σ) (s s' : σ) (ks : List U8) (hk : Keys next s ks s')
    (m : List U8) (hm : m.length = ks.length) :
    streamEncrypt next s m = ⟨List.zipWith (· ^^^ ·) ks m, s', .ok ()⟩ ∧
    (streamEncrypt next s m).yielded.length = m.length := by
  rw [streamEncrypt_keys hk m hm]
  exact ⟨rfl, by simp [hm]⟩

/-- C10: encrypting the output again with the same key stream returns the message, whenever the first
encryption did not run out of keys. -/
theorem C10_involution {σ : Type} (next : KeyIter σ) (s : σ) (m : List U8)
    (h : (streamEncrypt next s m).result = .ok ()) :
    (streamEncrypt next s (streamEncrypt next s m).yielded).yielded = m ∧
    (streamEncrypt next s (streamEncrypt next s m).yielded).result = .ok () := by
  induction m generalizing s with
  | nil => exact ⟨rfl, rfl⟩
  | cons d ds ih =>
    cases hn : next s with
    | mk k s' =>
      cases k with
      | none => simp [streamEncrypt, hn] at h
      | some k =>
        simp only [streamEncrypt, hn] at h
        obtain ⟨h1, h2⟩ := ih s' h
        simp only [streamEncrypt, hn, h1, h2, and_true, List.cons.injEq]
        rw [← BitVec.xor_assoc, BitVec.xor_self, BitVec.zero_xor]

/-- C10: if the key stream ends after `ks` and the message is longer, the output is cut after exactly the
available keys and then the iteration panics. -/
theorem C10_exhausted {σ : Type} (next : KeyIter σ) (s s' s'' : σ) (ks : List U8) (hk : Keys next s ks s')
    (hend : next s' = (none, s'')) (m : List U8) (hm : ks.length < m.length) :
    streamEncrypt next s m = ⟨List.zipWith (· ^^^ ·) ks m, s'', .error .unwrap⟩ ∧
    (streamEncrypt next s m).yielded.length = ks.length := by
  rw [streamEncrypt_exhausted hk hend m hm]
  refine ⟨rfl, ?_⟩
  simp; omega

/-- Example key iterator: a list of key bytes. -/
def listKeys : KeyIter (List U8)
  | [] => (none, [])
  | k :: ks => (some k, ks)

example : Keys listKeys [1, 2, 3] [1, 2] [3] := .cons rfl (.cons rfl (.nil _))
example : streamEncrypt listKeys [1, 2, 3] [7, 7] = ⟨[6, 5], [3], .ok ()⟩ := by decide +kernel
example : streamEncrypt listKeys [1, 2] [7, 7, 7] = ⟨[6, 5], [], .error .unwrap⟩ := by decide +kernel
example : encryptPieces listKeys [1, 2, 3] [[7], [], [7, 7]] = ⟨[6, 5, 4], [], .ok ()⟩ := by decide +kernel

/-- C02, C03, C08 and C10 applied: chaining with a block size of 4; the lengths and the bytes of its ciphertext; a bit
padded block; a key stream. -/
example : blockDecrypt (cbc 4) (revCipher 4) #v[9, 8, 7, 6]
    (blockEncrypt (cbc 4) (revCipher 4) #v[9, 8, 7, 6] [1, 2, 4, 3, 7, 8]).emitted = ⟨[1, 2, 4, 3, 7, 8], .ok ()⟩ :=
  (C02_mode_roundtrip (by decide) (by decide) (revCipher 4) (cbc 4) (cbc 4) Eq (cbc_lawful (revCipher_invertible 4)) _ _ rfl _).2
example : blockEncrypt (cbc 4) (revCipher 4) #v[9, 8, 7, 6] ([#v[1, 2, 4, 3]].flatMap Vector.toList ++ [7, 8]) =
    ⟨[#v[5, 3, 10, 8], #v[10, 8, 11, 2]].flatMap Vector.toList, .ok ()⟩ :=
  C03_layout (cbc 4) (revCipher 4) _ #v[10, 8, 11, 2] [#v[1, 2, 4, 3]] [7, 8] (by decide) #v[7, 8, 2, 2] (by decide) _
    (.cons (s1 := #v[5, 3, 10, 8]) (by decide +kernel) (.cons (s1 := #v[10, 8, 11, 2]) (by decide +kernel) (.nil _)))
example : (blockEncrypt (ecb 4) (revCipher 4) () [1, 2, 4, 3, 7, 8]).emitted.length = 8 :=
  (C03_length (by decide) (ecb 4) (revCipher 4) () (fun _ b => by
    obtain ⟨o, h, -⟩ := revCipher_invertible 4 b
    exact ⟨o, (), by simp [ecb, h, Except.map]⟩) [1, 2, 4, 3, 7, 8]).2
example : ∃ block zeroFilled, Pad.bitPad 5 [1, 0x80] = .ok block ∧ block.toList = [1, 0x80, 0x80, 0, 0] ∧
    Pad.bitUnpad 5 block = .ok (zeroFilled, 2) ∧ zeroFilled.toList = [1, 0x80, 0, 0, 0] :=
  C08_bit_roundtrip (N := 5) [1, 0x80] (by decide)
example : streamEncrypt listKeys [1, 2, 3] [7, 7] = ⟨[6, 5], [3], .ok ()⟩ :=
  (C10_xor listKeys [1, 2, 3] [3] [1, 2] (.cons rfl (.cons rfl (.nil _))) [7, 7] rfl).1
example : (streamEncrypt listKeys [1, 2, 3] (streamEncrypt listKeys [1, 2, 3] [7, 7]).yielded).yielded = [7, 7] :=
  (C10_involution listKeys [1, 2, 3] [7, 7] (by decide +kernel)).1

end Verif.Props
