import Verif.Proof.ReleasePanic
import Verif.Proof.RsaMessage
import Verif.Props.BigExact
import Verif.Props.Oaep

/-! # The release profile: numbers and RSA -/

namespace Verif.Model.Release
open Verif Verif.Spec.Release Verif.Spec.Big Verif.Model.Big

/-! ## Numbers of 2^29 bytes and more -/

theorem bitsUsed_big (n : Nat) : bitsUsed (big n) = .ok (n.size % 2 ^ 32) := by
  rcases norm_cases (norm_big n) with h' | ⟨l, b, h', hb⟩
  · have hn : n = 0 := by
      have := val_big n
      rw [← this]; unfold val; rw [h']; rfl
    subst hn
    unfold bitsUsed
    simp only [h', List.isEmpty_nil, if_true]
    rfl
  · have hb0 : b.toNat ≠ 0 := fun h0 => hb (BitVec.eq_of_toNat_eq (by simpa using h0))
    have hlen : (big n).bytes.length = l.length + 1 := by rw [h']; simp
    have hsize : n.size = 8 * l.length + (b.toNat.log2 + 1) := by
      have hv : n = leVal l + 256 ^ l.length * b.toNat := by
        rw [← val_big n]; unfold val; rw [h', leVal_append]; simp [leVal]
      have h1 : 2 ^ b.toNat.log2 ≤ b.toNat := Nat.log2_self_le hb0
      have h2 : b.toNat < 2 ^ (b.toNat.log2 + 1) := Nat.lt_log2_self
      have h3 := leVal_lt l
      apply Nat.le_antisymm
      · rw [Nat.size_le, Nat.pow_add, ← pow256, hv]
        calc leVal l + 256 ^ l.length * b.toNat < 256 ^ l.length + 256 ^ l.length * b.toNat := by omega
          _ = 256 ^ l.length * (b.toNat + 1) := by ring
          _ ≤ _ := Nat.mul_le_mul_left _ h2
      · rw [← Nat.add_assoc, Nat.add_one_le_iff, Nat.lt_size, Nat.pow_add, ← pow256, hv]
        calc 256 ^ l.length * 2 ^ b.toNat.log2 ≤ 256 ^ l.length * b.toNat := Nat.mul_le_mul_left _ h1
          _ ≤ _ := Nat.le_add_left _ _
    have e1 : (big n).bytes.isEmpty = false := by rw [h']; simp
    have e3 : idx (big n).bytes ((big n).bytes.length - 1) = .ok b := by
      unfold idx
      rw [hlen, Nat.add_sub_cancel, h']
      simp
    have e4 : ilog2 b = .ok b.toNat.log2 := by unfold ilog2; rw [if_neg hb]
    unfold bitsUsed
    simp only [e1, e3, e4, bind, Except.bind, pure, Except.pure, Bool.false_eq_true, if_false, mulW, addW]
    apply congrArg
    rw [hlen, hsize, Nat.add_sub_cancel]
    omega

theorem cmp_big (a b : Nat) (h : a.size % 2 ^ 32 ≠ b.size % 2 ^ 32) :
    cmp (big a) (big b) = .ok (compare (a.size % 2 ^ 32) (b.size % 2 ^ 32)) := by
  unfold cmp
  rw [bitsUsed_big, bitsUsed_big]
  generalize a.size % 2 ^ 32 = x at *
  generalize b.size % 2 ^ 32 = y at *
  show (match compare x y with
    | .eq => _
    | ord => _) = _
  rcases Nat.lt_or_gt_of_ne h with h' | h'
  · rw [Nat.compare_eq_lt.2 h']; rfl
  · rw [Nat.compare_eq_gt.2 h']; rfl

theorem rel_sub {cap : Nat → Nat} (hc : CapOk cap) (hr : CapReal cap) (a b : Nat) (ha : a.size ≤ 2 ^ 31) :
    Rel .explicit (Big.sub cap (big a) (big b)) (sub cap (big a) (big b)) := by
  have hl : (big a).bytes.length ≤ 2 ^ 28 := by rw [length_big]; omega
  refine rel_of_agree (agree_subAssign hr _ _) fun h => ?_
  have key := Model.Big.subAssign_eq (cap := cap) (a := a) (b := b) rfl hc hl
  unfold Big.sub at h
  rw [key] at h
  by_cases hb : (big b).bytes.length ≤ cap ((big a).bytes.length + 1)
  · rw [if_pos hb] at h; cases h
  · unfold sub subAssign
    have e2 : subW 64 (cap ((big a).bytes.length + 1)) (big b).bytes.length =
        cap ((big a).bytes.length + 1) + 2 ^ 64 - (big b).bytes.length := if_neg hb
    have e3 : pushAll (big b).bytes.length (cap ((big a).bytes.length + 1) + 2 ^ 64 - (big b).bytes.length) =
        .error .explicit := if_neg (by omega)
    rw [bitsUsed_big]
    simp only [e2, e3]
    rfl

/-! ## Decryption of messages -/

theorem powMod_ok {cap : Nat → Nat} (hc : CapOk cap) (hr : CapReal cap) (m e n : Nat) (hn : 2 ≤ n) (hsn : n.size ≤ 2 ^ 31 - 8)
    (hsm : m.size ≤ 2 ^ 31 - 8) (hse : e.size ≤ 2 ^ 32 - 8) :
    powMod cap (big m) (big e) (big n) = .ok (big (m ^ e % n)) := by
  have h1 := Rsa.powMod_ok hc m e n hn hsn hsm hse
  rcases agree_powMod hr (big m) (big e) (big n) with h | h
  · rw [h1] at h; cases h
  · rw [← h, h1]

theorem noOv_decode (em : List U8) (hl : em.length < 2 ^ 32) : NoOv (Oaep.decode Sha.sha256 [] em em.length) := by
  have hh := Props.sha256_computes
  have hm : ∀ (seed : List U8) (len : Nat), seed.length < 2 ^ 32 → len < 2 ^ 32 →
      NoOv (Oaep.mgf1 Sha.sha256 seed len) := by
    intro seed len hs hlen
    rw [Props.C51_mgf1 _ _ _ hh (by omega) seed len (by omega) (by omega) (by omega)]
    exact .ok _
  have hslen : ∀ {l : List U8} {a b : Nat} {s : List U8}, Oaep.slice l a b = .ok s → s.length ≤ l.length ∧ b ≤ l.length := by
    intro l a b s h
    unfold Oaep.slice at h
    by_cases hc : a ≤ b ∧ b ≤ l.length
    · rw [if_pos hc] at h
      rw [← Except.ok.inj h]
      simp only [List.length_take, List.length_drop]
      omega
    · rw [if_neg hc] at h; cases h
  unfold Oaep.decode
  refine (noOv_idx _ _).bind fun _ _ => .ite (fun _ => .pure _) fun _ => ?_
  rw [hh [] (by simp)]
  refine (NoOv.ok _).bind fun _ _ => ?_
  refine (noOv_slice _ _ _).bind fun ms hms => (noOv_slice _ _ _).bind fun mdb hdb => ?_
  have h1 := hslen hms
  have h2 := hslen hdb
  refine (hm _ _ (by omega) (by omega)).bind fun _ _ => ?_
  refine (noOv_xorSlices _ _).bind fun seed hseed => ?_
  have h3 : seed.length = ms.length := by
    unfold Oaep.xorSlices at hseed
    split at hseed
    · rw [← Except.ok.inj hseed]; simp
    · cases hseed
  have e1 : subU em.length 32 = .ok (em.length - 32) := if_pos (by omega)
  have e2 : subU (em.length - 32) 1 = .ok (em.length - 32 - 1) := if_pos (by omega)
  rw [e1]
  refine (NoOv.ok _).bind fun a ha => ?_
  rw [← Except.ok.inj ha, e2]
  refine (NoOv.ok _).bind fun b hb => ?_
  rw [← Except.ok.inj hb]
  refine (hm _ _ (by omega) (by omega)).bind fun _ _ => ?_
  refine (noOv_xorSlices _ _).bind fun db _ => (noOv_slice _ _ _).bind fun _ _ => .ite (fun _ => .pure _) fun _ => ?_
  refine (noOv_slice _ _ _).bind fun rest _ => ?_
  split
  · exact .pure _
  · exact (noOv_idx _ _).bind fun _ _ => .ite (fun _ => .pure _) fun _ => (noOv_slice _ _ _).bind fun _ _ => .pure _

theorem rel_decryptMessage {cap : Nat → Nat} (hc : CapOk cap) (hr : CapReal cap) (d n : Nat) (hn : 2 ≤ n)
    (hsn : n.size ≤ 2 ^ 31 - 8) (hsd : d.size ≤ 2 ^ 32 - 8) (ct : List U8) (hct : ct.length ≤ 2 ^ 28 - 1) :
    Rel .index (Rsa.decryptMessage cap ⟨big d, big n⟩ ct Oaep.rsaPadding)
      (decryptMessage cap ⟨big d, big n⟩ ct rsaPadding) := by
  have hsz : (beVal ct).size ≤ 2 ^ 31 - 8 := by
    have h1 := Model.Oaep.beVal_lt ct
    have h2 : (beVal ct).size ≤ 8 * ct.length := by
      rw [Nat.size_le, Nat.pow_mul]
      exact h1
    omega
  refine rel_of_agree (agree_decryptMessage hr _ _ _ _ fun l m n => agree_decode agree_sha256 l m n) fun h => ?_
  rw [Oaep.decryptMessage_eq hc d n hn hsn hsd _ ct hsz] at h
  have hp := powMod_ok hc hr (beVal ct) d n hn hsn hsz hsd
  have hlt : beVal ct ^ d % n < n := Nat.mod_lt _ (by omega)
  unfold decryptMessage decrypt
  simp only [fromBeBytes_eq, hp, bind, Except.bind, List.length_replicate, Oaep.length_toBeBytes]
  revert h
  generalize beVal ct ^ d % n = v at *
  intro h
  have hvs : v.size ≤ 2 ^ 31 - 8 := (Nat.size_le_size hlt.le).trans hsn
  have hvl : (big v).bytes.length < 2 ^ 32 := by rw [length_big]; omega
  by_cases hv : 256 ^ ct.length ≤ v
  · have hl : ¬ (big v).bytes.length ≤ ct.length := by rw [length_le_iff]; omega
    have e2 : subW 64 ct.length (big v).bytes.length = ct.length + 2 ^ 64 - (big v).bytes.length := if_neg hl
    rw [e2, if_pos (by omega)]
    rfl
  · rw [if_neg hv] at h
    exfalso
    have := noOv_decode (natToBE ct.length v) (by rw [length_natToBE]; omega)
    rw [length_natToBE] at this
    refine NoOv.bind this (fun a _ => ?_) h
    cases a <;> intro h <;> cases h

/-- Square and multiply, to compute examples. -/
def pm (n : Nat) : Nat → Nat → Nat → Nat
  | 0, _, _ => 1 % n
  | f + 1, a, e => if e = 0 then 1 % n else if e % 2 = 1 then pm n f (a * a % n) (e / 2) * a % n else pm n f (a * a % n) (e / 2)

theorem pm_eq (n : Nat) : ∀ (f a e : Nat), e < 2 ^ f → pm n f a e = a ^ e % n
  | 0, a, e, h => by
    obtain rfl : e = 0 := by omega
    rfl
  | f + 1, a, e, h => by
    have ih := pm_eq n f (a * a % n) (e / 2) (by omega)
    rw [pm, ih, ← Nat.pow_mod, ← Nat.pow_two, ← Nat.pow_mul]
    by_cases h0 : e = 0
    · rw [if_pos h0, h0]; rfl
    · rw [if_neg h0]
      by_cases h1 : e % 2 = 1
      · rw [if_pos h1, Nat.mod_mul_mod, ← Nat.pow_succ, show (2 * (e / 2)).succ = e by omega]
      · rw [if_neg h1, show 2 * (e / 2) = e by omega]

/-! ## Key generation -/

theorem createKeys_inv (p q e : Nat) (sk : Rsa.PrivateKey) (pk : Rsa.PublicKey)
    (h : createKeys (big p) (big q) (big e) = .ok (sk, pk)) :
    p < 2 ^ 128 ∧ q < 2 ^ 128 ∧ e < 2 ^ 128 ∧ ∃ d, d < 2 ^ 128 ∧
      sk = ⟨big (p * q % 2 ^ 128), big d⟩ ∧ pk = ⟨big (p * q % 2 ^ 128), big e⟩ := by
  unfold createKeys at h
  rw [Big.asU128_eq, Big.asU128_eq, Big.asU128_eq] at h
  simp only [length_le_iff, val_big] at h
  have h16 : (256 : Nat) ^ 16 = 2 ^ 128 := by norm_num
  by_cases hp : p < 2 ^ 128
  · by_cases hq : q < 2 ^ 128
    · by_cases he : e < 2 ^ 128
      · rw [if_pos (h16 ▸ hp), if_pos (h16 ▸ hq), if_pos (h16 ▸ he)] at h
        have e2 : ∀ n, n < 2 ^ 128 → (BitVec.ofNat 128 n).toNat = n := by
          intro n h; rw [BitVec.toNat_ofNat, Nat.mod_eq_of_lt h]
        refine ⟨hp, hq, he, ?_⟩
        simp only [bind, Except.bind, Rsa.unwrapResult, e2 _ hp, e2 _ hq, e2 _ he, Big.fromU128_eq] at h
        cases hl : lcm (subW 128 p 1) (subW 128 q 1) with
        | error x => rw [hl] at h; cases h
        | ok l =>
          rw [hl] at h
          simp only at h
          cases hi : inverse e l with
          | error x => rw [hi] at h; cases h
          | ok o =>
            rw [hi] at h
            cases o with
            | none => cases h
            | some d =>
              simp only [Rsa.unwrapOption] at h
              have h := Except.ok.inj h
              injection h with h1 h2
              refine ⟨(BitVec.ofNat 128 d).toNat, (BitVec.ofNat 128 d).isLt, ?_, ?_⟩
              · rw [← h1, mulW, e2 _ (Nat.mod_lt _ (by norm_num))]
              · rw [← h2, mulW, e2 _ (Nat.mod_lt _ (by norm_num))]
      · rw [if_pos (h16 ▸ hp), if_pos (h16 ▸ hq), if_neg (h16 ▸ he)] at h; cases h
    · rw [if_pos (h16 ▸ hp), if_neg (h16 ▸ hq)] at h; cases h
  · rw [if_neg (h16 ▸ hp)] at h; cases h

end Verif.Model.Release
