import Verif.Props.Modified
import Verif.Props.OtherModes
import Mathlib.Data.Fintype.Pi
import Mathlib.Data.Fintype.EquivFin

/-! # C155: what equal blocks of a ciphertext reveal under the chaining modes -/

namespace Verif.Props
open Verif Verif.Model Verif.Spec

theorem xorBlock_eq_iff {N : Nat} (a b x y : Vector U8 N) : xorBlock a x = xorBlock b y ↔ xorBlock a b = xorBlock x y := by
  simp only [Vector.ext_iff, xorBlock, Vector.getElem_ofFn, Fin.getElem_fin]
  refine forall_congr' fun i => forall_congr' fun hi => ?_
  generalize a[i] = p; generalize b[i] = q; generalize x[i] = r; generalize y[i] = s
  have hb : ∀ p q r s : Bool, (p ^^ r) = (q ^^ s) ↔ (p ^^ q) = (r ^^ s) := by decide
  constructor
  · intro h
    apply BitVec.eq_of_getElem_eq
    intro k hk
    have := congrArg (fun v : U8 => v[k]) h
    simp only [BitVec.getElem_xor] at this ⊢
    exact (hb _ _ _ _).1 this
  · intro h
    apply BitVec.eq_of_getElem_eq
    intro k hk
    have := congrArg (fun v : U8 => v[k]) h
    simp only [BitVec.getElem_xor] at this ⊢
    exact (hb _ _ _ _).2 this

theorem cbc_blocks {N : Nat} (hN : 1 ≤ N) (c : BlockCipher N) (enc : Vector U8 N → Vector U8 N)
    (h : ∀ b, c.encrypt b = .ok (enc b)) (iv : Vector U8 N) (plaintext : List U8) :
    ∃ bs os : List (Vector U8 N), bytesOf bs = padded N plaintext ∧ os.length = bs.length ∧
      blockEncrypt (cbc N) c iv plaintext = ⟨bytesOf os, .ok ()⟩ ∧
      ∀ i (hi : i < bs.length) (hi' : i < os.length) (hi'' : i < (iv :: os).length),
        os[i] = enc (xorBlock bs[i] (iv :: os)[i]) := by
  have htot : ∀ (s b : Vector U8 N), ∃ r s', (cbc N).encryptBlock c s b = .ok (r, s') :=
    fun s b => ⟨_, _, by simp only [cbc, h, Except.map]; rfl⟩
  choose f s' hf using steps_total htot iv
  obtain ⟨bs, h1, h2⟩ := emits hN (cbc N) c iv plaintext f fun bs => ⟨s' bs, hf bs⟩
  refine ⟨bs, f bs, h1, (Steps.length (hf bs)), h2, fun i hi hi' hi'' => ?_⟩
  have := cbc_outputs (hf bs) i hi hi' hi''
  rw [h] at this
  exact (Except.ok.inj this).symm

/-- C155: under CBC two blocks of the ciphertext are equal exactly if the xor of the two blocks of the message is the xor of
the two ciphertext blocks (or the initial vector) before them; so an eavesdropper who sees two equal blocks knows the xor of
two blocks of the message. -/
theorem C155_cbc {N : Nat} (hN : 1 ≤ N) (c : BlockCipher N) (hc : Invertible c) (iv : Vector U8 N) (plaintext : List U8) :
    ∃ bs os : List (Vector U8 N), bytesOf bs = padded N plaintext ∧ os.length = bs.length ∧
      blockEncrypt (cbc N) c iv plaintext = ⟨bytesOf os, .ok ()⟩ ∧
      ∀ i j, ∀ (hi : i < os.length) (hj : j < os.length) (hbi : i < bs.length) (hbj : j < bs.length)
        (hpi : i < (iv :: os).length) (hpj : j < (iv :: os).length),
        os[i] = os[j] ↔ xorBlock bs[i] bs[j] = xorBlock (iv :: os)[i] (iv :: os)[j] := by
  obtain ⟨enc, he, hinj⟩ := invertible_enc hc
  obtain ⟨bs, os, h1, h2, h3, h4⟩ := cbc_blocks hN c enc he iv plaintext
  refine ⟨bs, os, h1, h2, h3, fun i j hi hj hbi hbj hpi hpj => ?_⟩
  rw [h4 i hbi hi hpi, h4 j hbj hj hpj, hinj.eq_iff, xorBlock_eq_iff]

/-- C155: under CFB the same with the blocks one place further. -/
theorem C155_cfb {N : Nat} (hN : 1 ≤ N) (c : BlockCipher N) (hc : Invertible c) (iv : Vector U8 N) (plaintext : List U8) :
    ∃ bs os : List (Vector U8 N), bytesOf bs = padded N plaintext ∧ os.length = bs.length ∧
      blockEncrypt (cfb N) c iv plaintext = ⟨bytesOf os, .ok ()⟩ ∧
      ∀ i j, ∀ (hi : i < os.length) (hj : j < os.length) (hbi : i < bs.length) (hbj : j < bs.length)
        (hpi : i < (iv :: os).length) (hpj : j < (iv :: os).length),
        (iv :: os)[i] = (iv :: os)[j] ↔ xorBlock bs[i] bs[j] = xorBlock os[i] os[j] := by
  obtain ⟨enc, he, hinj⟩ := invertible_enc hc
  obtain ⟨bs, os, h1, h2, h3⟩ := C146_cfb hN c enc he iv plaintext
  have hl : os.length = bs.length := by
    have := congrArg List.length h2
    rw [List.length_zipWith, List.length_cons] at this
    have hb : N * bs.length = (padded N plaintext).length := by rw [← h1]; exact (length_bytesOf bs).symm
    obtain ⟨bs', hbs', e⟩ := emits hN (cfb N) c iv plaintext (fun bs => (cfb_steps c enc he iv bs).choose)
      fun bs => ⟨_, (cfb_steps c enc he iv bs).choose_spec.choose_spec.1⟩
    have hb' : N * bs'.length = (padded N plaintext).length := by rw [← hbs']; exact (length_bytesOf bs').symm
    rw [h3] at e
    have e2 := congrArg (fun r : Run => r.emitted.length) e
    have l1 := length_bytesOf os
    have l2 := length_bytesOf (cfb_steps c enc he iv bs').choose
    unfold bytesOf at l1 l2
    simp only [l1, l2] at e2
    have l3 := Steps.length (cfb_steps c enc he iv bs').choose_spec.choose_spec.1
    rw [Nat.mul_left_cancel_iff hN] at e2
    have : bs'.length = bs.length := Nat.eq_of_mul_eq_mul_left hN (hb'.trans hb.symm)
    omega
  have h4 : ∀ i (hi : i < os.length) (hbi : i < bs.length) (hpi : i < (iv :: os).length),
      os[i] = xorBlock bs[i] (enc (iv :: os)[i]) := by
    intro i hi hbi hpi
    have := congrArg (fun l : List (Vector U8 N) => l[i]?) h2
    simp only [List.getElem?_zipWith, List.getElem?_eq_getElem hi, List.getElem?_eq_getElem hbi,
      List.getElem?_eq_getElem hpi] at this
    exact Option.some.inj this
  refine ⟨bs, os, h1, hl, h3, fun i j hi hj hbi hbj hpi hpj => ?_⟩
  conv => rhs; rw [h4 i hi hbi hpi, h4 j hj hbj hpj]
  rw [← xorBlock_eq_iff, ← hinj.eq_iff]
  have hk : ∀ b k : Vector U8 N, xorBlock b (xorBlock b k) = k := by
    intro b k
    apply Vector.ext
    intro i hi
    simp only [xorBlock, Vector.getElem_ofFn, Fin.getElem_fin]
    rw [← BitVec.xor_assoc, BitVec.xor_self, BitVec.zero_xor]
  rw [hk, hk]

theorem equal_pair (N : Nat) (os : List (Vector U8 N)) (h : 256 ^ N < os.length) :
    ∃ i j, ∃ (hi : i < os.length) (hj : j < os.length), i < j ∧ os[i] = os[j] := by
  have hcard : Fintype.card (Fin N → Fin 256) < Fintype.card (Fin os.length) := by
    rw [Fintype.card_fun, Fintype.card_fin, Fintype.card_fin, Fintype.card_fin]
    exact h
  obtain ⟨i, j, hne, he⟩ := Fintype.exists_ne_map_eq_of_card_lt
    (fun (i : Fin os.length) (k : Fin N) => ((os[i])[k]).toFin) hcard
  have heq : os[i] = os[j] := by
    apply Vector.ext
    intro k hk
    have := congrFun he ⟨k, hk⟩
    exact BitVec.eq_of_toNat_eq (congrArg Fin.val this)
  rcases Nat.lt_or_gt_of_ne (fun h => hne (Fin.ext h)) with h | h
  · exact ⟨i, j, i.isLt, j.isLt, h, heq⟩
  · exact ⟨j, i, j.isLt, i.isLt, h, heq.symm⟩

/-- C155: a message of more than `256 ^ N` blocks has two equal blocks in its ciphertext, so something is revealed for
certain. (By chance it happens near the square root of that: 2^32 blocks or 32 GiB for RC2 and RC5.) -/
theorem C155_certain {N : Nat} (hN : 1 ≤ N) (c : BlockCipher N) (hc : Invertible c) (iv : Vector U8 N) (plaintext : List U8)
    (hlen : N * 256 ^ N ≤ plaintext.length) :
    ∃ os : List (Vector U8 N), blockEncrypt (cbc N) c iv plaintext = ⟨bytesOf os, .ok ()⟩ ∧
      ∃ i j, ∃ (hi : i < os.length) (hj : j < os.length), i < j ∧ os[i] = os[j] := by
  obtain ⟨bs, os, h1, h2, h3, _⟩ := C155_cbc hN c hc iv plaintext
  refine ⟨os, h3, equal_pair N os ?_⟩
  have hl := congrArg List.length h1
  rw [length_bytesOf] at hl
  unfold padded at hl
  rw [List.length_append, List.length_replicate] at hl
  have := Nat.mod_lt plaintext.length hN
  rw [h2]
  refine Nat.lt_of_mul_lt_mul_left (a := N) ?_
  omega

/-- C155: under CTR, on the other hand, what is added to the blocks of the message never repeats before all counters have been
used: so a ciphertext tells for each pair of blocks of the message one xor that it does not have. -/
theorem C155_ctr {N : Nat} (hN : 1 ≤ N) (c : BlockCipher N) (hc : Invertible c) (iv : Vector U8 N) (plaintext : List U8) :
    ∃ bs os : List (Vector U8 N), bytesOf bs = padded N plaintext ∧ os.length = bs.length ∧
      blockEncrypt (ctr N) c iv plaintext = ⟨bytesOf os, .ok ()⟩ ∧
      ∀ i j, ∀ (hi : i < os.length) (hj : j < os.length) (hbi : i < bs.length) (hbj : j < bs.length),
        i < j → j < i + 256 ^ N → xorBlock bs[i] bs[j] ≠ xorBlock os[i] os[j] := by
  obtain ⟨enc, he, hinj⟩ := invertible_enc hc
  obtain ⟨bs, h1, h2⟩ := C146_ctr hN c enc he iv plaintext
  refine ⟨bs, _, h1, by simp, h2, fun i j hi hj hbi hbj hij hlt heq => ?_⟩
  rw [← xorBlock_eq_iff] at heq
  simp only [List.getElem_mapIdx] at heq
  have hk : ∀ b k : Vector U8 N, xorBlock b (xorBlock b k) = k := by
    intro b k
    apply Vector.ext
    intro i hi
    simp only [xorBlock, Vector.getElem_ofFn, Fin.getElem_fin]
    rw [← BitVec.xor_assoc, BitVec.xor_self, BitVec.zero_xor]
  rw [hk, hk] at heq
  have := congrArg blockNat (hinj heq)
  rw [blockNat_natBlock, blockNat_natBlock] at this
  have hd := (Nat.modEq_iff_dvd' (by omega : blockNat iv + i ≤ blockNat iv + j)).1 this
  have := Nat.le_of_dvd (by omega) hd
  omega

/-- Not vacuous: the three ciphers of the crate (C121), and a toy cipher whose CBC ciphertext has two equal blocks. -/
example (k : Rc2.RC2) (iv : Vector U8 8) (plaintext : List U8) (hlen : 8 * 256 ^ 8 ≤ plaintext.length) :
    ∃ os : List (Vector U8 8), blockEncrypt (cbc 8) (Rc2.cipher k) iv plaintext = ⟨bytesOf os, .ok ()⟩ ∧
      ∃ i j, ∃ (hi : i < os.length) (hj : j < os.length), i < j ∧ os[i] = os[j] :=
  C155_certain (by omega) _ (C121_ciphers.2.1 k) iv plaintext hlen
example : (blockEncrypt (cbc 2) (revCipher 2) #v[0, 0] [1, 2, 3, 3]).emitted = [2, 1, 2, 1, 3, 0] ∧
    xorBlock #v[1, 2] #v[3, 3] = xorBlock #v[0, 0] (#v[2, 1] : Vector U8 2) := by
  decide +kernel

end Verif.Props
