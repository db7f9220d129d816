import Verif.Proof.Release
import Verif.Proof.Big

/-! # The release profile: where the checked code panics because of an overflow, the unchecked one panics too -/

namespace Verif.Model.Release
open Verif Verif.Spec.Release

variable {α β : Type}

/-- Not a panic because of an overflow. -/
def NoOv (d : R α) : Prop := d ≠ .error .overflow

theorem NoOv.ok (a : α) : NoOv (.ok a : R α) := by intro h; cases h
theorem NoOv.pure (a : α) : NoOv (Pure.pure a : R α) := by intro h; cases h

theorem NoOv.bind {d : R α} {f : α → R β} (h : NoOv d) (hf : ∀ a, d = .ok a → NoOv (f a)) : NoOv (d >>= f) := by
  cases d with
  | error e => intro h'; exact h (by injection h' with h'; rw [h'])
  | ok a => exact hf a rfl

theorem NoOv.ite {c : Prop} [Decidable c] {a b : R α} (h : c → NoOv a) (h' : ¬ c → NoOv b) : NoOv (if c then a else b) := by
  by_cases hc : c
  · rw [if_pos hc]; exact h hc
  · rw [if_neg hc]; exact h' hc

theorem noOv_idx (l : List α) (i : Nat) : NoOv (idx l i) := by
  unfold idx; split <;> intro h <;> cases h
theorem noOv_vidx {n : Nat} (l : Vector α n) (i : Nat) : NoOv (vidx l i) := by
  unfold vidx; split <;> intro h <;> cases h
theorem noOv_vset {n : Nat} (l : Vector α n) (i : Nat) (a : α) : NoOv (vset l i a) := by
  unfold vset; split <;> intro h <;> cases h
theorem noOv_copyInto {n : Nat} (l : Vector U8 n) (i : Nat) (s : List U8) : NoOv (copyInto l i s) := by
  unfold copyInto; split <;> intro h <;> cases h
theorem noOv_slice (l : List U8) (i j : Nat) : NoOv (Oaep.slice l i j) := by
  unfold Oaep.slice; split <;> intro h <;> cases h
theorem noOv_xorSlices (a b : List U8) : NoOv (Oaep.xorSlices a b) := by
  unfold Oaep.xorSlices; split <;> intro h <;> cases h

theorem overflowBecomes_eq {e : Panic} {d : R α} (h : NoOv d) : overflowBecomes e d = d := by
  unfold overflowBecomes
  split
  · exact absurd rfl h
  · rfl

/-- `r` is `d` except that an overflow becomes `e`. -/
def Rel (e : Panic) (d r : R α) : Prop := r = overflowBecomes e d

theorem Rel.rfl' {e : Panic} {d : R α} (h : NoOv d) : Rel e d d := (overflowBecomes_eq h).symm

theorem Rel.overflow {e : Panic} : Rel (α := α) e (.error .overflow) (.error e) := rfl

theorem Rel.bind {e : Panic} {d r : R α} {f g : α → R β} (h : Rel e d r) (hf : ∀ a, d = .ok a → Rel e (f a) (g a)) :
    Rel e (d >>= f) (r >>= g) := by
  unfold Rel at h
  subst h
  cases d with
  | ok a => exact hf a rfl
  | error x =>
    by_cases hx : x = .overflow
    · subst hx; rfl
    · have : NoOv (.error x : R α) := by intro h; injection h with h; exact hx h
      rw [overflowBecomes_eq this]
      refine Eq.symm (overflowBecomes_eq ?_)
      intro h; injection h with h; exact hx h

theorem Rel.same {e : Panic} {d : R α} {f g : α → R β} (h : NoOv d) (hf : ∀ a, d = .ok a → Rel e (f a) (g a)) :
    Rel e (d >>= f) (d >>= g) := Rel.bind (.rfl' h) hf

theorem Rel.ok_bind {e : Panic} {x : α} {f : α → R β} {g : R β} (h : Rel e (f x) g) : Rel e (.ok x >>= f) g := h

theorem Rel.ite {e : Panic} {c : Prop} [Decidable c] {a b a' b' : R α} (h : c → Rel e a a') (h' : ¬ c → Rel e b b') :
    Rel e (if c then a else b) (if c then a' else b') := by
  by_cases hc : c
  · rw [if_pos hc, if_pos hc]; exact h hc
  · rw [if_neg hc, if_neg hc]; exact h' hc

/-- A function that agrees with the checked one and panics with `e` where that one overflows. -/
theorem rel_of_agree {e : Panic} {d r : R α} (h : Agree d r) (h' : d = .error .overflow → r = .error e) : Rel e d r := by
  unfold Rel
  by_cases hd : d = .error .overflow
  · rw [h' hd, hd]; rfl
  · rw [overflowBecomes_eq hd]
    exact (h.resolve_left hd).symm

/-! ## Padding -/

theorem rel_pkcsUnpad (N : Nat) (b : Vector U8 N) : Rel .index (Pad.pkcsUnpad N b) (pkcsUnpad N b) := by
  refine rel_of_agree (agree_pkcsUnpad N b) fun h => ?_
  unfold Pad.pkcsUnpad at h
  by_cases hN : 0 < N
  · rw [dif_pos hN] at h
    by_cases h2 : N < (b[N - 1]).toNat
    · simp only [h2, if_true] at h; cases h
    · simp only [h2, if_false] at h; cases h
  · obtain rfl : N = 0 := by omega
    unfold pkcsUnpad
    rw [vidx, dif_neg (by omega)]
    rfl

/-! ## RC2 -/

theorem rel_expand1 (t : Nat) : ∀ (n i : Nat) (l : Vector U8 128), t ≤ i → i + n ≤ 128 →
    Rel .index (Rc2.expand1 t n i l) (expand1 t n i l)
  | 0, _, _, _, _ => .rfl' (.ok _)
  | n + 1, i, l, h, h2 => by
    rw [Rc2.expand1, expand1]
    by_cases hi : 1 ≤ i
    · have e1 : subU i 1 = .ok (i - 1) := if_pos hi
      have e2 : subW 64 i 1 = i - 1 := if_pos hi
      have e3 : subU i t = .ok (i - t) := if_pos h
      have e4 : subW 64 i t = i - t := if_pos h
      rw [e1, e2, e3, e4]
      refine Rel.ok_bind ?_
      refine Rel.same (noOv_vidx _ _) fun _ _ => ?_
      refine Rel.ok_bind ?_
      refine Rel.same (noOv_vidx _ _) fun _ _ => Rel.same (noOv_vset _ _ _) fun l _ => ?_
      exact rel_expand1 t n (i + 1) l (by omega) (by omega)
    · have e1 : subU i 1 = .error .overflow := if_neg hi
      have e2 : subW 64 i 1 = i + 2 ^ 64 - 1 := if_neg hi
      have e3 : vidx l (i + 2 ^ 64 - 1) = .error .index := dif_neg (by omega)
      rw [e1, e2, e3]
      rfl

theorem noOv_expand2 (t8 : Nat) : ∀ (k : Nat) (l : Vector U8 128), NoOv (Rc2.expand2 t8 k l)
  | 0, _ => .ok _
  | k + 1, l => by
    rw [Rc2.expand2]
    exact (noOv_vidx _ _).bind fun _ _ => (noOv_vidx _ _).bind fun _ _ => (noOv_vset _ _ _).bind fun l _ => noOv_expand2 t8 k l

theorem rel_expandKey (key : List U8) (n : U16) : Rel .index (Rc2.expandKey key n) (expandKey key n) := by
  unfold Rc2.expandKey expandKey
  refine Rel.ite (fun _ => .rfl' (by intro h; cases h)) fun hl => ?_
  refine Rel.bind (rel_expand1 _ _ _ _ (Nat.le_refl _) (by omega)) fun l _ => ?_
  have hn := n.isLt
  by_cases h : (n.toNat + 7) / 8 ≤ 128
  · have e1 : subU 128 ((n.toNat + 7) / 8) = .ok (128 - (n.toNat + 7) / 8) := if_pos h
    have e2 : subW 16 128 ((n.toNat + 7) / 8) = 128 - (n.toNat + 7) / 8 := if_pos h
    simp only [e1, e2]
    refine Rel.ok_bind (.rfl' ?_)
    exact (noOv_vidx _ _).bind fun _ _ => (noOv_vset _ _ _).bind fun _ _ => (noOv_expand2 _ _ _).bind fun _ _ => .ok _
  · have e1 : subU 128 ((n.toNat + 7) / 8) = .error .overflow := if_neg h
    have e2 : subW 16 128 ((n.toNat + 7) / 8) = 128 + 2 ^ 16 - (n.toNat + 7) / 8 := if_neg h
    have e3 : vidx l (128 + 2 ^ 16 - (n.toNat + 7) / 8) = .error .index := dif_neg (by omega)
    simp only [e1, e2, e3]
    rfl

theorem rel_fromKey (key : List U8) (n : U16) : Rel .index (Rc2.fromKey key n) (fromKey key n) := by
  unfold Rc2.fromKey fromKey
  exact Rel.bind (rel_expandKey _ _) fun _ _ => .rfl' (.ok _)

/-! ## ASN.1 -/

theorem rel_lengthField (b : List U8) : Rel .index (Asn1.lengthField b) (lengthField b) := by
  unfold Asn1.lengthField lengthField
  refine Rel.same (noOv_idx _ _) fun x _ => Rel.ite (fun _ => ?_) fun _ => .rfl' ((noOv_slice _ _ _).bind fun _ _ => .ok _)
  generalize hn : (x &&& 0x7f#8).toNat = n
  have hn' : n < 256 := by rw [← hn]; exact (x &&& 0x7f#8).isLt
  by_cases h : n ≤ 16
  · have e1 : subU 16 n = .ok (16 - n) := if_pos h
    have e2 : subW 64 16 n = 16 - n := if_pos h
    simp only [e1, e2]
    refine Rel.ok_bind ?_
    exact .rfl' ((noOv_slice _ _ _).bind fun _ _ => (noOv_copyInto _ _ _).bind fun _ _ => (noOv_slice _ _ _).bind fun _ _ => .ok _)
  · have e1 : subU 16 n = .error .overflow := if_neg h
    have e2 : subW 64 16 n = 16 + 2 ^ 64 - n := if_neg h
    simp only [e1, e2]
    unfold Rel
    by_cases hs : 2 ≤ 2 + n ∧ 2 + n ≤ b.length
    · rw [Oaep.slice, if_pos hs]
      have e3 : ∀ s, copyInto (Vector.replicate 16 0#8) (16 + 2 ^ 64 - n) s = .error .index := fun s => if_neg (by omega)
      simp only [bind, Except.bind, e3]
      rfl
    · rw [Oaep.slice, if_neg hs]
      rfl

theorem rel_sequenceLoop {e : Panic} {p q : List U8 → R (Except Asn1.Error (Asn1.Asn1 × List U8))} (h : ∀ l, Rel e (p l) (q l)) :
    ∀ (n : Nat) (left : List U8) (acc : List Asn1.Asn1),
      Rel e (Asn1.sequenceLoop p n left acc) (Asn1.sequenceLoop q n left acc) := by
  intro n
  induction n with
  | zero => intro left acc; exact .rfl' (by intro h; cases h)
  | succ n ih =>
    intro left acc
    rw [Asn1.sequenceLoop, Asn1.sequenceLoop]
    refine Rel.ite (fun _ => ?_) fun _ => .rfl' (.ok _)
    refine Rel.bind (h _) fun a _ => ?_
    cases a with
    | error e => exact .rfl' (.ok _)
    | ok a => exact ih _ _

theorem rel_parse : ∀ (fuel : Nat) (b : List U8), Rel .index (Asn1.parseFromBytes fuel b) (parseFromBytes fuel b)
  | 0, _ => .rfl' (by intro h; cases h)
  | fuel + 1, b => by
    have s2 : ∀ (r : List U8) (n : Nat) (f : List U8 → List U8 → R (Except Asn1.Error (Asn1.Asn1 × List U8))),
        (∀ x y, NoOv (f x y)) →
        NoOv (do let x ← Oaep.slice r 0 n; let y ← Oaep.slice r n r.length; f x y) :=
      fun r n f hf => (noOv_slice _ _ _).bind fun _ _ => (noOv_slice _ _ _).bind fun _ _ => hf _ _
    rw [Asn1.parseFromBytes, parseFromBytes]
    refine Rel.ite (fun _ => .rfl' (.pure _)) fun _ => Rel.same (noOv_idx _ _) fun tag _ => Rel.bind (rel_lengthField _) fun a _ => ?_
    refine Rel.ite (fun _ => .rfl' (.pure _)) fun _ => ?_
    refine Rel.ite (fun _ => .rfl' (s2 _ _ _ fun _ _ => .pure _)) fun _ => ?_
    refine Rel.ite (fun _ => .rfl' (s2 _ _ _ fun _ _ => .pure _)) fun _ => ?_
    refine Rel.ite (fun _ => .rfl' ((noOv_slice _ _ _).bind fun _ _ => (noOv_idx _ _).bind fun _ _ =>
      (noOv_slice _ _ _).bind fun _ _ => .pure _)) fun _ => ?_
    refine Rel.ite (fun _ => .rfl' ((noOv_slice _ _ _).bind fun _ _ => .pure _)) fun _ => ?_
    refine Rel.ite (fun _ => .rfl' (s2 _ _ _ fun _ _ => .pure _)) fun _ => ?_
    refine Rel.ite (fun _ => ?_) fun _ => .rfl' (.pure _)
    refine Rel.same (noOv_slice _ _ _) fun left _ => Rel.bind (rel_sequenceLoop (rel_parse fuel) _ _ _) fun a _ => .rfl' ?_
    cases a with
    | error e => exact .pure _
    | ok a => exact (noOv_slice _ _ _).bind fun _ _ => .pure _

theorem rel_tryFrom (b : List U8) : Rel .index (Asn1.tryFrom b) (tryFrom b) := by
  unfold Asn1.tryFrom tryFrom
  refine Rel.bind (rel_parse _ _) fun a _ => .rfl' ?_
  cases a with
  | error e => exact .pure _
  | ok a => exact .ite (fun _ => .pure _) fun _ => .pure _

theorem noOv_fromBeBytes (l : List U8) : NoOv (Big.fromBeBytes l) := by rw [Big.fromBeBytes_eq]; exact .ok _

theorem noOv_privateKey (a : Asn1.Asn1) : NoOv (RsaAsn1.PrivateKey.fromAsn1 a) := by
  unfold RsaAsn1.PrivateKey.fromAsn1
  cases a with
  | sequence seq =>
    refine .ite (fun _ => .pure _) fun _ => ?_
    split
    · refine .ite (fun _ => .pure _) fun _ => ?_
      refine (noOv_idx _ _).bind fun _ _ => ?_
      iterate 8 refine (noOv_fromBeBytes _).bind fun _ _ => ?_
      exact .pure _
    · exact .pure _
  | _ => exact .ok _

theorem noOv_publicKey (a : Asn1.Asn1) : NoOv (RsaAsn1.PublicKey.fromAsn1 a) := by
  unfold RsaAsn1.PublicKey.fromAsn1
  cases a with
  | sequence seq =>
    refine .ite (fun _ => .pure _) fun _ => ?_
    split
    · iterate 2 refine (noOv_fromBeBytes _).bind fun _ _ => ?_
      exact .pure _
    · exact .pure _
  | _ => exact .ok _

theorem rel_privateKeyInfo (a : Asn1.Asn1) : Rel .index (RsaAsn1.PrivateKeyInfo.fromAsn1 a) (privateKeyInfo a) := by
  unfold RsaAsn1.PrivateKeyInfo.fromAsn1 privateKeyInfo
  cases a with
  | sequence seq =>
    refine Rel.ite (fun _ => .rfl' (.pure _)) fun _ => Rel.same (noOv_idx _ _) fun v _ =>
      Rel.ite (fun _ => .rfl' (.pure _)) fun _ => Rel.same (noOv_idx _ _) fun v _ => ?_
    cases RsaAsn1.AlgorithmIdentifier.fromAsn1 v with
    | error e => exact .rfl' (.pure _)
    | ok algo =>
      refine Rel.ite (fun _ => .rfl' (.pure _)) fun _ => Rel.same (noOv_idx _ _) fun v _ => ?_
      cases v with
      | octetString bytes =>
        refine Rel.bind (rel_tryFrom _) fun a _ => .rfl' ?_
        cases a with
        | error e => exact .pure _
        | ok a =>
          refine (noOv_privateKey _).bind fun k _ => ?_
          cases k <;> exact .pure _
      | _ => exact .rfl' (.pure _)
  | _ => exact .rfl' (.ok _)

theorem rel_subjectPublicKeyInfo (a : Asn1.Asn1) :
    Rel .index (RsaAsn1.SubjectPublicKeyInfo.fromAsn1 a) (subjectPublicKeyInfo a) := by
  unfold RsaAsn1.SubjectPublicKeyInfo.fromAsn1 subjectPublicKeyInfo
  cases a with
  | sequence seq =>
    refine Rel.ite (fun _ => .rfl' (.pure _)) fun _ => Rel.same (noOv_idx _ _) fun v _ => ?_
    cases RsaAsn1.AlgorithmIdentifier.fromAsn1 v with
    | error e => exact .rfl' (.pure _)
    | ok algo =>
      refine Rel.ite (fun _ => .rfl' (.pure _)) fun _ => Rel.same (noOv_idx _ _) fun v _ => ?_
      cases v with
      | bitString bytes u =>
        refine Rel.ite (fun _ => .rfl' (.pure _)) fun _ => Rel.bind (rel_tryFrom _) fun a _ => .rfl' ?_
        cases a with
        | error e => exact .pure _
        | ok a =>
          refine (noOv_publicKey _).bind fun k _ => ?_
          cases k <;> exact .pure _
      | _ => exact .rfl' (.pure _)
  | _ => exact .rfl' (.ok _)

theorem rel_privateKeyTryFrom (p : Pem.PEM) : Rel .index (Pem.privateKeyTryFrom p) (privateKeyTryFrom p) := by
  unfold Pem.privateKeyTryFrom privateKeyTryFrom
  refine Rel.ite (fun _ => .rfl' (.pure _)) fun _ => Rel.bind (rel_tryFrom _) fun a _ => ?_
  cases a with
  | error e => exact .rfl' (.pure _)
  | ok a =>
    refine Rel.bind (rel_privateKeyInfo _) fun k _ => ?_
    cases k <;> exact .rfl' (.pure _)

theorem rel_publicKeyTryFrom (p : Pem.PEM) : Rel .index (Pem.publicKeyTryFrom p) (publicKeyTryFrom p) := by
  unfold Pem.publicKeyTryFrom publicKeyTryFrom
  refine Rel.ite (fun _ => .rfl' (.pure _)) fun _ => Rel.bind (rel_tryFrom _) fun a _ => ?_
  cases a with
  | error e => exact .rfl' (.pure _)
  | ok a =>
    refine Rel.bind (rel_subjectPublicKeyInfo _) fun k _ => ?_
    cases k <;> exact .rfl' (.pure _)

end Verif.Model.Release
