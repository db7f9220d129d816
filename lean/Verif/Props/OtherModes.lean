import Verif.Spec.Modes
import Verif.Props.ChosenPrefix
import Verif.Proof.ReleaseHash

/-! # C146: the other modes of NIST SP 800-38A, written as `BlockCipherMode`s -/

namespace Verif.Props
open Verif Model Spec
open _root_.Verif.Spec.ChosenPrefix (attack Strategy)

theorem cfb_lawful {N : Nat} {c : BlockCipher N} (h : ∀ b, ∃ o, c.encrypt b = .ok o) :
    Lawful ((cfb N).encryptBlock c) ((cfb N).decryptBlock c) Eq where
  step s t b e := by
    subst e
    obtain ⟨k, hk⟩ := h s
    exact ⟨_, _, _, by simp only [cfb, hk, Except.map]; rfl, by simp only [cfb, hk, Except.map, xorBlock_cancel], rfl⟩

theorem ofb_lawful {N : Nat} {c : BlockCipher N} (h : ∀ b, ∃ o, c.encrypt b = .ok o) :
    Lawful ((ofb N).encryptBlock c) ((ofb N).decryptBlock c) Eq where
  step s t b e := by
    subst e
    obtain ⟨k, hk⟩ := h s
    exact ⟨_, _, _, by simp only [ofb, hk, Except.map]; rfl, by simp only [ofb, hk, Except.map, xorBlock_cancel], rfl⟩

theorem ctr_lawful {N : Nat} {c : BlockCipher N} (h : ∀ b, ∃ o, c.encrypt b = .ok o) :
    Lawful ((ctr N).encryptBlock c) ((ctr N).decryptBlock c) Eq where
  step s t b e := by
    subst e
    obtain ⟨k, hk⟩ := h s
    exact ⟨_, _, _, by simp only [ctr, hk, Except.map]; rfl, by simp only [ctr, hk, Except.map, xorBlock_cancel], rfl⟩

/-- C146: with any of the three modes every message comes back, whatever the cipher's `decrypt` does (it may be wrong or
panic): only its `encrypt` must not panic. -/
theorem C146_roundtrip {N : Nat} (hN : 1 ≤ N) (hN' : N ≤ 255) (c : BlockCipher N) (h : ∀ b, ∃ o, c.encrypt b = .ok o)
    (iv : Vector U8 N) (plaintext : List U8) :
    blockDecrypt (cfb N) c iv (blockEncrypt (cfb N) c iv plaintext).emitted = ⟨plaintext, .ok ()⟩ ∧
    blockDecrypt (ofb N) c iv (blockEncrypt (ofb N) c iv plaintext).emitted = ⟨plaintext, .ok ()⟩ ∧
    blockDecrypt (ctr N) c iv (blockEncrypt (ctr N) c iv plaintext).emitted = ⟨plaintext, .ok ()⟩ :=
  ⟨(C02_mode_roundtrip hN hN' c _ _ Eq (cfb_lawful h) iv iv rfl plaintext).2,
    (C02_mode_roundtrip hN hN' c _ _ Eq (ofb_lawful h) iv iv rfl plaintext).2,
    (C02_mode_roundtrip hN hN' c _ _ Eq (ctr_lawful h) iv iv rfl plaintext).2⟩

/-! ## What is emitted -/

theorem natBlock_toList (N n : Nat) : (natBlock N n).toList = natToBE N n := by
  apply List.ext_getElem
  · rw [Vector.length_toList, length_natToBE]
  · intro i h1 h2
    simp [natBlock, List.getElem?_eq_getElem h2]

theorem blockNat_natBlock (N n : Nat) : blockNat (natBlock N n) = n % 256 ^ N := by
  rw [blockNat, natBlock_toList, beVal_natToBE]

theorem natBlock_mod (N n : Nat) : natBlock N (n % 256 ^ N) = natBlock N n := by
  apply Vector.toList_inj.1
  rw [natBlock_toList, natBlock_toList, natToBE, natToBE, Release.natToLE_mod]

theorem natBlock_blockNat {N : Nat} (b : Vector U8 N) : natBlock N (blockNat b) = b := by
  apply Vector.toList_inj.1
  rw [natBlock_toList, natToBE, blockNat, beVal]
  have := natToLE_leVal b.toList.reverse
  rw [List.length_reverse, Vector.length_toList] at this
  rw [this, List.reverse_reverse]

theorem natBlock_succ (N n : Nat) : natBlock N (blockNat (natBlock N n) + 1) = natBlock N (n + 1) := by
  rw [blockNat_natBlock, ← natBlock_mod, Nat.mod_add_mod, natBlock_mod]

/-- The blocks of the padded message, and what a mode makes of them. -/
theorem emits {N : Nat} (hN : 1 ≤ N) {σ : Type} (m : Mode N σ) (c : BlockCipher N) (s : σ) (plaintext : List U8)
    (f : List (Vector U8 N) → List (Vector U8 N))
    (hf : ∀ bs, ∃ s', Steps (m.encryptBlock c) s bs (f bs) s') :
    ∃ bs : List (Vector U8 N), bs.flatMap Vector.toList = padded N plaintext ∧
      blockEncrypt m c s plaintext = ⟨(f bs).flatMap Vector.toList, .ok ()⟩ := by
  obtain ⟨bs, tail, e, ht, hb⟩ := exists_chunks hN plaintext
  have ht' : tail.length < N := ht ▸ Nat.mod_lt _ hN
  obtain ⟨last, _, hl⟩ := Pad.pkcsPad_ok ht'
  refine ⟨bs ++ [last], ?_, ?_⟩
  · unfold padded
    rw [List.flatMap_append, e, ← e, ← ht, e]
    simp [hl, pkcs7]
  · obtain ⟨s', hs⟩ := hf (bs ++ [last])
    conv => lhs; rw [e]
    exact blockEncrypt_steps m c bs tail ht' last hl hs

theorem ctr_steps {N : Nat} (c : BlockCipher N) (enc : Vector U8 N → Vector U8 N) (h : ∀ b, c.encrypt b = .ok (enc b))
    (n : Nat) (bs : List (Vector U8 N)) : ∃ s', Steps ((ctr N).encryptBlock c) (natBlock N n) bs
      (bs.mapIdx fun i b => xorBlock b (enc (natBlock N (n + i)))) s' := by
  induction bs generalizing n with
  | nil => exact ⟨_, .nil _⟩
  | cons b bs ih =>
    obtain ⟨s', hs⟩ := ih (n + 1)
    refine ⟨s', ?_⟩
    rw [List.mapIdx_cons]
    refine .cons (s1 := natBlock N (n + 1)) ?_ ?_
    · simp only [ctr, h, Except.map, natBlock_succ]; rfl
    · simpa only [Nat.add_assoc, Nat.add_comm 1] using hs

/-- C146, counter mode: block `i` of the padded message is xored with the encryption of `iv + i` (modulo the number of
counters). -/
theorem C146_ctr {N : Nat} (hN : 1 ≤ N) (c : BlockCipher N) (enc : Vector U8 N → Vector U8 N)
    (h : ∀ b, c.encrypt b = .ok (enc b)) (iv : Vector U8 N) (plaintext : List U8) :
    ∃ bs : List (Vector U8 N), bs.flatMap Vector.toList = padded N plaintext ∧
      blockEncrypt (ctr N) c iv plaintext =
        ⟨(bs.mapIdx fun i b => xorBlock b (enc (natBlock N (blockNat iv + i)))).flatMap Vector.toList, .ok ()⟩ :=
  emits hN (ctr N) c iv plaintext _ fun bs => by
    have := ctr_steps c enc h (blockNat iv) bs
    rwa [natBlock_blockNat] at this

theorem ofb_steps {N : Nat} (c : BlockCipher N) (enc : Vector U8 N → Vector U8 N) (h : ∀ b, c.encrypt b = .ok (enc b))
    (s : Vector U8 N) (bs : List (Vector U8 N)) : ∃ s', Steps ((ofb N).encryptBlock c) s bs
      (bs.mapIdx fun i b => xorBlock b (enc^[i + 1] s)) s' := by
  induction bs generalizing s with
  | nil => exact ⟨_, .nil _⟩
  | cons b bs ih =>
    obtain ⟨s', hs⟩ := ih (enc s)
    refine ⟨s', ?_⟩
    rw [List.mapIdx_cons]
    refine .cons (s1 := enc s) ?_ hs
    simp only [ofb, h, Except.map]; rfl

/-- C146, output feedback: block `i` of the padded message is xored with the cipher applied `i + 1` times to `iv`. -/
theorem C146_ofb {N : Nat} (hN : 1 ≤ N) (c : BlockCipher N) (enc : Vector U8 N → Vector U8 N)
    (h : ∀ b, c.encrypt b = .ok (enc b)) (iv : Vector U8 N) (plaintext : List U8) :
    ∃ bs : List (Vector U8 N), bs.flatMap Vector.toList = padded N plaintext ∧
      blockEncrypt (ofb N) c iv plaintext =
        ⟨(bs.mapIdx fun i b => xorBlock b (enc^[i + 1] iv)).flatMap Vector.toList, .ok ()⟩ :=
  emits hN (ofb N) c iv plaintext _ fun bs => ofb_steps c enc h iv bs

theorem cfb_steps {N : Nat} (c : BlockCipher N) (enc : Vector U8 N → Vector U8 N) (h : ∀ b, c.encrypt b = .ok (enc b))
    (s : Vector U8 N) (bs : List (Vector U8 N)) : ∃ os s', Steps ((cfb N).encryptBlock c) s bs os s' ∧
      os = List.zipWith (fun b prev => xorBlock b (enc prev)) bs (s :: os) := by
  induction bs generalizing s with
  | nil => exact ⟨[], _, .nil _, rfl⟩
  | cons b bs ih =>
    obtain ⟨os, s', hs, e⟩ := ih (xorBlock b (enc s))
    refine ⟨xorBlock b (enc s) :: os, s', .cons (s1 := xorBlock b (enc s)) ?_ hs, ?_⟩
    · simp only [cfb, h, Except.map]
    · rw [List.zipWith_cons_cons, ← e]

/-- C146, cipher feedback: each block of the padded message is xored with the encryption of the ciphertext block before it
(of `iv` for the first one). -/
theorem C146_cfb {N : Nat} (hN : 1 ≤ N) (c : BlockCipher N) (enc : Vector U8 N → Vector U8 N)
    (h : ∀ b, c.encrypt b = .ok (enc b)) (iv : Vector U8 N) (plaintext : List U8) :
    ∃ bs os : List (Vector U8 N), bs.flatMap Vector.toList = padded N plaintext ∧
      os = List.zipWith (fun b prev => xorBlock b (enc prev)) bs (iv :: os) ∧
      blockEncrypt (cfb N) c iv plaintext = ⟨os.flatMap Vector.toList, .ok ()⟩ := by
  choose f s' hf hs using cfb_steps c enc h iv
  obtain ⟨bs, h1, h2⟩ := emits hN (cfb N) c iv plaintext f fun bs => ⟨s' bs, hf bs⟩
  exact ⟨bs, f bs, h1, hs bs, h2⟩

/-- C146: with an initialisation vector that is used again none of the three modes protects a secret behind a text of somebody
else's choice (the attack of C144). -/
theorem C146_iv_reuse {N : Nat} (hN : 1 ≤ N) (hN' : N ≤ 255) (c : BlockCipher N) (h : ∀ b, ∃ o, c.encrypt b = .ok o)
    (iv : Vector U8 N) (secret : List U8) :
    (attack.run fun text => (blockEncrypt (cfb N) c iv (text ++ secret)).emitted).1 = secret ∧
    (attack.run fun text => (blockEncrypt (ofb N) c iv (text ++ secret)).emitted).1 = secret ∧
    (attack.run fun text => (blockEncrypt (ctr N) c iv (text ++ secret)).emitted).1 = secret :=
  ⟨(C144_same_start hN hN' c (cfb N) (cfb N) Eq (cfb_lawful h) iv iv rfl secret).1,
    (C144_same_start hN hN' c (ofb N) (ofb N) Eq (ofb_lawful h) iv iv rfl secret).1,
    (C144_same_start hN hN' c (ctr N) (ctr N) Eq (ctr_lawful h) iv iv rfl secret).1⟩

/-- A toy cipher whose decryption always panics. -/
def oneWay (N : Nat) : BlockCipher N := ⟨fun b => .ok b.reverse, fun _ => .error .explicit⟩

example : (blockEncrypt (ctr 2) (oneWay 2) #v[0, 255] [1, 2, 3]).emitted = [254, 2, 3, 0] ∧
    blockDecrypt (ctr 2) (oneWay 2) #v[0, 255] [254, 2, 3, 0] = ⟨[1, 2, 3], .ok ()⟩ := by decide +kernel
example : (blockEncrypt (ofb 2) (oneWay 2) #v[0, 255] [1, 2, 3]).emitted = [254, 2, 3, 254] := by decide +kernel
example : (blockEncrypt (cfb 2) (oneWay 2) #v[0, 255] [1, 2, 3]).emitted = [254, 2, 1, 255] := by decide +kernel
/-- The counter starts again after its last value. -/
example : natBlock 2 (blockNat #v[255, 255] + 1) = #v[0, 0] := by decide
/-- C146 applied. -/
example : blockDecrypt (ctr 16) (oneWay 16) (natBlock 16 7) (blockEncrypt (ctr 16) (oneWay 16) (natBlock 16 7) [1, 2, 3]).emitted
    = ⟨[1, 2, 3], .ok ()⟩ := (C146_roundtrip (by decide) (by decide) (oneWay 16) (fun b => ⟨_, rfl⟩) _ _).2.2
example : ∃ bs : List (Vector U8 2), bs.flatMap Vector.toList = [1, 2, 3, 1] ∧ blockEncrypt (ctr 2) (oneWay 2) #v[0, 255] [1, 2, 3] =
    ⟨(bs.mapIdx fun i b => xorBlock b (natBlock 2 (255 + i)).reverse).flatMap Vector.toList, .ok ()⟩ :=
  C146_ctr (by decide) (oneWay 2) Vector.reverse (fun _ => rfl) #v[0, 255] [1, 2, 3]

end Verif.Props
