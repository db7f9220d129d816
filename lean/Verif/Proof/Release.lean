import Verif.Model.Release
import Verif.Spec.Release
import Mathlib.Tactic.NormNum

/-! # The release profile: agreement with the checked code -/

namespace Verif.Model.Release
open Verif Verif.Spec.Release

variable {α β : Type}

theorem _root_.Verif.Spec.Release.Agree.rfl' {r : R α} : Agree r r := .inr rfl

theorem _root_.Verif.Spec.Release.Agree.bind {d r : R α} {f g : α → R β} (h : Agree d r) (hf : ∀ a, d = .ok a → Agree (f a) (g a)) :
    Agree (d >>= f) (r >>= g) := by
  obtain rfl | rfl := h
  · exact .inl rfl
  · cases d with
    | error e => exact .inr rfl
    | ok a => exact hf a rfl

theorem _root_.Verif.Spec.Release.Agree.bind' {d r : R α} {f g : α → R β} (h : Agree d r) (hf : ∀ a, Agree (f a) (g a)) :
    Agree (d >>= f) (r >>= g) := h.bind fun a _ => hf a

theorem _root_.Verif.Spec.Release.Agree.bind_ok {d : R α} {x : α} {f : α → R β} {g : R β} (h : Agree d (.ok x)) (hf : Agree (f x) g) :
    Agree (d >>= f) g := by
  obtain rfl | rfl := h
  · exact .inl rfl
  · exact hf

theorem _root_.Verif.Spec.Release.Agree.same {d : R α} {f g : α → R β} (hf : ∀ a, d = .ok a → Agree (f a) (g a)) : Agree (d >>= f) (d >>= g) :=
  Agree.bind .rfl' hf

theorem _root_.Verif.Spec.Release.Agree.ite {c : Prop} [Decidable c] {a b a' b' : R α} (h : c → Agree a a') (h' : ¬ c → Agree b b') :
    Agree (if c then a else b) (if c then a' else b') := by
  by_cases hc : c
  · rw [if_pos hc, if_pos hc]; exact h hc
  · rw [if_neg hc, if_neg hc]; exact h' hc

theorem agree_mulU64 (a b : Nat) : Agree (mulU64 a b) (.ok (mulW 64 a b)) := by
  unfold mulU64 mulW
  by_cases h : a * b < 2 ^ 64
  · rw [if_pos h, Nat.mod_eq_of_lt h]; exact .rfl'
  · rw [if_neg h]; exact .inl rfl

theorem agree_mulU128 (a b : Nat) : Agree (mulU128 a b) (.ok (mulW 128 a b)) := by
  unfold mulU128 mulW
  by_cases h : a * b < 2 ^ 128
  · rw [if_pos h, Nat.mod_eq_of_lt h]; exact .rfl'
  · rw [if_neg h]; exact .inl rfl

theorem agree_mulU32 (a b : Nat) : Agree (mulU32 a b) (.ok (mulW 32 a b)) := by
  unfold mulU32 mulW
  by_cases h : a * b < 2 ^ 32
  · rw [if_pos h, Nat.mod_eq_of_lt h]; exact .rfl'
  · rw [if_neg h]; exact .inl rfl

theorem agree_addU32 (a b : Nat) : Agree (addU32 a b) (.ok (addW 32 a b)) := by
  unfold addU32 addW
  by_cases h : a + b < 2 ^ 32
  · rw [if_pos h, Nat.mod_eq_of_lt h]; exact .rfl'
  · rw [if_neg h]; exact .inl rfl

theorem agree_subU (w a b : Nat) : Agree (subU a b) (.ok (subW w a b)) := by
  unfold subU subW
  by_cases h : b ≤ a
  · rw [if_pos h, if_pos h]; exact .rfl'
  · rw [if_neg h]; exact .inl rfl

theorem i128W_eq {t : Int} (h : -2 ^ 127 ≤ t ∧ t < 2 ^ 127) : i128W t = t := by
  unfold i128W
  norm_num at h ⊢
  omega

theorem agree_i128 (t : Int) : Agree (Rsa.i128 t) (.ok (i128W t)) := by
  unfold Rsa.i128
  by_cases h : -2 ^ 127 ≤ t ∧ t < 2 ^ 127
  · rw [if_pos h, i128W_eq h]; exact .rfl'
  · rw [if_neg h]; exact .inl rfl

/-! ## Padding -/

theorem agree_pkcsUnpad (N : Nat) (b : Vector U8 N) : Agree (Pad.pkcsUnpad N b) (pkcsUnpad N b) := by
  unfold Pad.pkcsUnpad pkcsUnpad
  by_cases h : 0 < N
  · have e : subW 64 N 1 = N - 1 := if_pos h
    rw [dif_pos h, e, vidx, dif_pos (by omega)]
    refine .inr ?_
    show (if N < b[N - 1].toNat then _ else _) = (if N < b[N - 1].toNat then _ else _)
    by_cases h2 : N < b[N - 1].toNat
    · rw [if_pos h2, if_pos h2]; rfl
    · rw [if_neg h2, if_neg h2, subW, if_pos (by omega)]; rfl
  · rw [dif_neg h]; exact .inl rfl

/-! ## SHA -/

theorem agree_sha1Padding (src : List U8) (n : Nat) : Agree (Sha.sha1Padding src n) (sha1Padding src n) := by
  unfold Sha.sha1Padding sha1Padding
  refine .same fun last _ => .same fun last _ => ?_
  refine .ite (fun _ => ?_) (fun _ => ?_)
  · exact .bind_ok (agree_mulU64 _ _) .rfl'
  · exact .bind_ok (agree_mulU64 _ _) .rfl'

theorem agree_sha1 (m : List U8) : Agree (Sha.sha1 m) (sha1 m) := by
  unfold Sha.sha1 sha1
  exact .bind' (agree_sha1Padding _ _) fun _ => .rfl'

theorem agree_sha256Core (init : Vector U32 8) (m : List U8) : Agree (Sha.sha256Core init m) (sha256Core init m) := by
  unfold Sha.sha256Core sha256Core
  exact .bind' (agree_sha1Padding _ _) fun _ => .rfl'

theorem agree_sha224 (m : List U8) : Agree (Sha.sha224 m) (sha224 m) := by
  unfold Sha.sha224 sha224
  exact .bind' (agree_sha256Core _ _) fun _ => .rfl'

theorem agree_sha256 (m : List U8) : Agree (Sha.sha256 m) (sha256 m) := by
  unfold Sha.sha256 sha256
  exact .bind' (agree_sha256Core _ _) fun _ => .rfl'

/-! ## MD4, MD5 -/

theorem agree_foldlM {σ ι : Type} {f g : σ → ι → R σ} (h : ∀ s i, Agree (f s i) (g s i)) :
    ∀ (l : List ι) (s : σ), Agree (l.foldlM f s) (l.foldlM g s)
  | [], _ => .rfl'
  | i :: l, s => by
    rw [List.foldlM_cons, List.foldlM_cons]
    exact (h s i).bind' fun s => agree_foldlM h l s

theorem agree_consume (process : Vector U32 16 → Md.Abcd → R Md.Abcd) (h : Md.Hasher) (b : U8) :
    Agree (h.consume process b) (consume process h b) := by
  unfold Md.Hasher.consume consume
  by_cases hb : h.bytesConsumed + 1 < 2 ^ 64
  · rw [if_pos hb, addW, Nat.mod_eq_of_lt hb]; exact .rfl'
  · rw [if_neg hb]; exact .inl rfl

theorem agree_numPadBytes (a : Nat) : Agree (Md.numPadBytes a) (.ok (numPadBytes a)) := by
  unfold Md.numPadBytes numPadBytes
  by_cases h : a = 56
  · rw [if_pos h, if_pos h]; exact .rfl'
  · rw [if_neg h, if_neg h]; exact .bind_ok (agree_subU 64 _ _) .rfl'

theorem agree_finish (process : Vector U32 16 → Md.Abcd → R Md.Abcd) (h : Md.Hasher) :
    Agree (h.finish process) (finish process h) := by
  unfold Md.Hasher.finish finish
  refine .bind_ok (agree_mulU64 _ _) (.bind_ok (agree_numPadBytes _) (.bind' (agree_consume _ _ _) fun h => ?_))
  refine .bind_ok (agree_subU 64 _ _) ?_
  exact .bind' (agree_foldlM (agree_consume _) _ _) fun h => .bind' (agree_foldlM (agree_consume _) _ _) fun h => .rfl'

theorem agree_mdHash (process : Vector U32 16 → Md.Abcd → R Md.Abcd) (m : List U8) :
    Agree (Md.hash process m) (mdHash process m) := by
  unfold Md.hash mdHash
  exact .bind' (agree_foldlM (agree_consume _) _ _) fun h => agree_finish _ _

theorem agree_md4 (m : List U8) : Agree (Md4.hash m) (md4 m) := agree_mdHash _ _
theorem agree_md5 (m : List U8) : Agree (Md5.hash m) (md5 m) := agree_mdHash _ _

/-! ## RC2 -/

theorem agree_expand1 (t : Nat) : ∀ (n i : Nat) (l : Vector U8 128), Agree (Rc2.expand1 t n i l) (expand1 t n i l)
  | 0, _, _ => .rfl'
  | n + 1, i, l => by
    rw [Rc2.expand1, expand1]
    refine .bind_ok (agree_subU 64 _ _) (.same fun a _ => .bind_ok (agree_subU 64 _ _) (.same fun b _ => .same fun l _ => ?_))
    exact agree_expand1 t n (i + 1) l

theorem agree_expandKey (key : List U8) (n : U16) : Agree (Rc2.expandKey key n) (expandKey key n) := by
  unfold Rc2.expandKey expandKey
  refine .ite (fun _ => .rfl') fun _ => .bind' (agree_expand1 _ _ _ _) fun l => .bind_ok (agree_subU 16 _ _) .rfl'

theorem agree_fromKey (key : List U8) (n : U16) : Agree (Rc2.fromKey key n) (fromKey key n) := by
  unfold Rc2.fromKey fromKey
  exact .bind' (agree_expandKey _ _) fun _ => .rfl'

/-! ## ASN.1 -/

theorem agree_lengthField (b : List U8) : Agree (Asn1.lengthField b) (lengthField b) := by
  unfold Asn1.lengthField lengthField
  refine .same fun x _ => .ite (fun _ => .bind_ok (agree_subU 64 _ _) .rfl') fun _ => .rfl'

theorem agree_sequenceLoop {p q : List U8 → R (Except Asn1.Error (Asn1.Asn1 × List U8))} (h : ∀ l, Agree (p l) (q l)) :
    ∀ (n : Nat) (left : List U8) (acc : List Asn1.Asn1),
      Agree (Asn1.sequenceLoop p n left acc) (Asn1.sequenceLoop q n left acc) := by
  intro n
  induction n with
  | zero => intro left acc; exact .rfl'
  | succ n ih =>
    intro left acc
    rw [Asn1.sequenceLoop, Asn1.sequenceLoop]
    refine .ite (fun _ => ?_) fun _ => .rfl'
    refine .bind' (h _) fun a => ?_
    cases a with
    | error e => exact .rfl'
    | ok a => exact ih _ _

theorem agree_parse : ∀ (fuel : Nat) (b : List U8), Agree (Asn1.parseFromBytes fuel b) (parseFromBytes fuel b)
  | 0, _ => .rfl'
  | fuel + 1, b => by
    rw [Asn1.parseFromBytes, parseFromBytes]
    refine .ite (fun _ => .rfl') fun _ => .same fun tag _ => .bind' (agree_lengthField _) fun a => ?_
    refine .ite (fun _ => .rfl') fun _ => .ite (fun _ => .rfl') fun _ => .ite (fun _ => .rfl') fun _ =>
      .ite (fun _ => .rfl') fun _ => .ite (fun _ => .rfl') fun _ => .ite (fun _ => .rfl') fun _ => .ite (fun _ => ?_) fun _ => .rfl'
    refine .same fun left _ => .bind' (agree_sequenceLoop (agree_parse fuel) _ _ _) fun a => .rfl'

theorem agree_tryFrom (b : List U8) : Agree (Asn1.tryFrom b) (tryFrom b) := by
  unfold Asn1.tryFrom tryFrom
  exact .bind' (agree_parse _ _) fun _ => .rfl'

theorem agree_privateKeyInfo (a : Asn1.Asn1) : Agree (RsaAsn1.PrivateKeyInfo.fromAsn1 a) (privateKeyInfo a) := by
  unfold RsaAsn1.PrivateKeyInfo.fromAsn1 privateKeyInfo
  cases a with
  | sequence seq =>
    refine .ite (fun _ => .rfl') fun _ => .same fun v _ => .ite (fun _ => .rfl') fun _ => .same fun v _ => ?_
    cases RsaAsn1.AlgorithmIdentifier.fromAsn1 v with
    | error e => exact .rfl'
    | ok algo =>
      refine .ite (fun _ => .rfl') fun _ => .same fun v _ => ?_
      cases v with
      | octetString bytes => exact .bind' (agree_tryFrom _) fun _ => .rfl'
      | _ => exact .rfl'
  | _ => exact .rfl'

theorem agree_subjectPublicKeyInfo (a : Asn1.Asn1) :
    Agree (RsaAsn1.SubjectPublicKeyInfo.fromAsn1 a) (subjectPublicKeyInfo a) := by
  unfold RsaAsn1.SubjectPublicKeyInfo.fromAsn1 subjectPublicKeyInfo
  cases a with
  | sequence seq =>
    refine .ite (fun _ => .rfl') fun _ => .same fun v _ => ?_
    cases RsaAsn1.AlgorithmIdentifier.fromAsn1 v with
    | error e => exact .rfl'
    | ok algo =>
      refine .ite (fun _ => .rfl') fun _ => .same fun v _ => ?_
      cases v with
      | bitString bytes u => exact .ite (fun _ => .rfl') fun _ => .bind' (agree_tryFrom _) fun _ => .rfl'
      | _ => exact .rfl'
  | _ => exact .rfl'

theorem agree_privateKeyTryFrom (p : Pem.PEM) : Agree (Pem.privateKeyTryFrom p) (privateKeyTryFrom p) := by
  unfold Pem.privateKeyTryFrom privateKeyTryFrom
  refine .ite (fun _ => .rfl') fun _ => .bind' (agree_tryFrom _) fun a => ?_
  cases a with
  | error e => exact .rfl'
  | ok a => exact .bind' (agree_privateKeyInfo _) fun _ => .rfl'

theorem agree_publicKeyTryFrom (p : Pem.PEM) : Agree (Pem.publicKeyTryFrom p) (publicKeyTryFrom p) := by
  unfold Pem.publicKeyTryFrom publicKeyTryFrom
  refine .ite (fun _ => .rfl') fun _ => .bind' (agree_tryFrom _) fun a => ?_
  cases a with
  | error e => exact .rfl'
  | ok a => exact .bind' (agree_subjectPublicKeyInfo _) fun _ => .rfl'

/-! ## BigUint -/

open Big (BigUint)

theorem agree_bitsUsed (x : BigUint) : Agree (Big.bitsUsed x) (bitsUsed x) := by
  unfold Big.bitsUsed bitsUsed
  refine .ite (fun _ => .rfl') fun _ => .bind_ok (agree_mulU32 _ _) (.same fun _ _ => .same fun top _ => ?_)
  exact agree_addU32 _ _

theorem agree_isSet (x : BigUint) (i : Nat) : Agree (Big.isSet x i) (isSet x i) := by
  unfold Big.isSet isSet
  exact .bind' (agree_bitsUsed _) fun _ => .rfl'

theorem agree_cmpLoop (x y : BigUint) : ∀ n, Agree (Big.cmpLoop x y n) (cmpLoop x y n)
  | 0 => .rfl'
  | n + 1 => by
    rw [Big.cmpLoop, cmpLoop]
    refine .bind' (agree_isSet _ _) fun a => .bind' (agree_isSet _ _) fun b => .ite (fun _ => .rfl') fun _ =>
      .ite (fun _ => .rfl') fun _ => agree_cmpLoop x y n

theorem agree_cmp (x y : BigUint) : Agree (Big.cmp x y) (cmp x y) := by
  unfold Big.cmp cmp
  refine .bind' (agree_bitsUsed _) fun a => .bind' (agree_bitsUsed _) fun b => ?_
  cases compare a b with
  | eq => exact .bind' (agree_bitsUsed _) fun n => agree_cmpLoop x y n
  | _ => exact .rfl'

theorem agree_subAssign {cap : Nat → Nat} (hc : CapReal cap) (x y : BigUint) :
    Agree (Big.subAssign cap x y) (subAssign cap x y) := by
  unfold Big.subAssign subAssign
  refine .bind' (agree_bitsUsed _) fun curr => ?_
  by_cases h : y.bytes.length ≤ cap (x.bytes.length + 1)
  · have h1 : subU (cap (x.bytes.length + 1)) y.bytes.length = .ok (cap (x.bytes.length + 1) - y.bytes.length) := if_pos h
    have h2 : subW 64 (cap (x.bytes.length + 1)) y.bytes.length = cap (x.bytes.length + 1) - y.bytes.length := if_pos h
    have h3 : pushAll y.bytes.length (cap (x.bytes.length + 1) - y.bytes.length) = .ok () :=
      if_pos (by have := hc (x.bytes.length + 1); omega)
    simp only [h1, h2, h3]
    refine .same fun _ _ => .same fun x _ => .same fun x _ => .bind' (agree_bitsUsed _) fun _ => .rfl'
  · have h1 : subU (cap (x.bytes.length + 1)) y.bytes.length = .error .overflow := if_neg h
    rw [h1]; exact .inl rfl

theorem agree_remLoop {cap : Nat → Nat} (hc : CapReal cap) : ∀ (n : Nat) (x m : BigUint),
    Agree (Big.remLoop cap x m n) (remLoop cap x m n)
  | 0, _, _ => .rfl'
  | n + 1, x, m => by
    rw [Big.remLoop, remLoop]
    refine .bind' (agree_cmp _ _) fun o => ?_
    refine .ite (fun _ => .bind' (agree_subAssign hc _ _) fun x => .same fun m _ => agree_remLoop hc n x m)
      fun _ => .same fun x _ => .same fun m _ => agree_remLoop hc n x m

theorem agree_rem {cap : Nat → Nat} (hc : CapReal cap) (x m : BigUint) : Agree (Big.rem cap x m) (rem cap x m) := by
  unfold Big.rem rem
  refine .bind' (agree_bitsUsed _) fun a => .bind' (agree_bitsUsed _) fun b => .ite (fun _ => .rfl') fun _ => ?_
  refine .bind' (agree_bitsUsed _) fun a => .bind' (agree_bitsUsed _) fun b => .bind_ok (agree_subU 32 _ _) ?_
  exact agree_remLoop hc _ _ _

/-! ## RSA -/

theorem agree_lcm (a b : Nat) : Agree (Rsa.lcm a b) (lcm a b) := by
  unfold Rsa.lcm lcm
  exact .bind_ok (agree_mulU128 _ _) .rfl'

theorem agree_inverseLoop : ∀ (fuel r r' : Nat) (t t' : Int), Agree (Rsa.inverseLoop fuel r r' t t') (inverseLoop fuel r r' t t')
  | 0, _, _, _, _ => .rfl'
  | fuel + 1, r, r', t, t' => by
    rw [Rsa.inverseLoop, inverseLoop]
    refine .ite (fun _ => .same fun q _ => ?_) fun _ => .rfl'
    refine .bind_ok (agree_mulU128 _ _) (.bind_ok (agree_subU 128 _ _) (.bind_ok (agree_i128 _) (.bind_ok (agree_i128 _) ?_)))
    exact agree_inverseLoop _ _ _ _ _

theorem agree_inverse (a n : Nat) : Agree (Rsa.inverse a n) (inverse a n) := by
  unfold Rsa.inverse inverse
  refine .bind' (agree_inverseLoop _ _ _ _ _) fun a => .ite (fun _ => .rfl') fun _ => ?_
  by_cases h : a.2 < 0
  · rw [if_pos h, if_pos h]; exact .bind_ok (agree_i128 _) .rfl'
  · rw [if_neg h, if_neg h]; exact .rfl'

theorem agree_createKeys (p q e : BigUint) : Agree (Rsa.createKeys p q e) (createKeys p q e) := by
  unfold Rsa.createKeys createKeys
  refine .same fun _ _ => .same fun p _ => .same fun _ _ => .same fun q _ => .same fun _ _ => .same fun e _ => ?_
  refine .bind_ok (agree_mulU128 _ _) (.bind_ok (agree_subU 128 _ _) (.bind_ok (agree_subU 128 _ _) ?_))
  refine .bind' (agree_lcm _ _) fun l => .bind' (agree_inverse _ _) fun d => .rfl'

theorem agree_mulModLoop {cap : Nat → Nat} (hc : CapReal cap) (m : BigUint) : ∀ (fuel : Nat) (r a b : BigUint),
    Agree (Rsa.mulModLoop cap m fuel r a b) (mulModLoop cap m fuel r a b)
  | 0, _, _, _ => .rfl'
  | fuel + 1, r, a, b => by
    rw [Rsa.mulModLoop, mulModLoop]
    refine .bind' (agree_bitsUsed _) fun n => .ite (fun _ => .bind' (agree_isSet _ _) fun s => ?_) fun _ => .rfl'
    have key : ∀ r, Agree (do
        let a ← Big.rem cap (Big.shl a 1) m
        let b ← Big.shr b 1
        Rsa.mulModLoop cap m fuel r a b) (do
        let a ← rem cap (Big.shl a 1) m
        let b ← Big.shr b 1
        mulModLoop cap m fuel r a b) := fun r =>
      .bind' (agree_rem hc _ _) fun a => .same fun b _ => agree_mulModLoop hc m fuel r a b
    refine .ite (fun _ => ?_) fun _ => .same fun r _ => key r
    exact .same fun x _ => .bind' (agree_rem hc _ _) key

theorem agree_mulMod {cap : Nat → Nat} (hc : CapReal cap) (a b m : BigUint) : Agree (Rsa.mulMod cap a b m) (mulMod cap a b m) := by
  unfold Rsa.mulMod mulMod
  exact .same fun _ _ => agree_mulModLoop hc _ _ _ _ _

theorem agree_powModLoop {cap : Nat → Nat} (hc : CapReal cap) (p m : BigUint) : ∀ (k i : Nat) (r a : BigUint),
    Agree (Rsa.powModLoop cap p m k i r a) (powModLoop cap p m k i r a)
  | 0, _, _, _ => .rfl'
  | k + 1, i, r, a => by
    rw [Rsa.powModLoop, powModLoop]
    refine .bind' (agree_isSet _ _) fun s => ?_
    have key : ∀ r, Agree (do
        let a ← Rsa.mulMod cap a a m
        Rsa.powModLoop cap p m k (i + 1) r a) (do
        let a ← mulMod cap a a m
        powModLoop cap p m k (i + 1) r a) := fun r =>
      .bind' (agree_mulMod hc _ _ _) fun a => agree_powModLoop hc p m k (i + 1) r a
    exact .ite (fun _ => .bind' (agree_mulMod hc _ _ _) key) fun _ => .same fun r _ => key r

theorem agree_powMod {cap : Nat → Nat} (hc : CapReal cap) (a p m : BigUint) : Agree (Rsa.powMod cap a p m) (powMod cap a p m) := by
  unfold Rsa.powMod powMod
  exact .bind' (agree_bitsUsed _) fun _ => .same fun _ _ => agree_powModLoop hc _ _ _ _ _ _

theorem agree_encryptMessage {ε : Type} {cap : Nat → Nat} (hc : CapReal cap) (key : Rsa.RsaEncryption) (m : List U8)
    (p p' : Rsa.PaddingScheme ε) (hp : ∀ l m n, Agree (p.encode l m n) (p'.encode l m n)) :
    Agree (Rsa.encryptMessage cap key m p) (encryptMessage cap key m p') := by
  unfold Rsa.encryptMessage encryptMessage
  refine .bind' (agree_bitsUsed _) fun n => ?_
  generalize hw : subW 32 n 1 = w
  refine .bind_ok (x := w) (hw ▸ agree_subU 32 n 1) ?_
  refine .bind' (hp _ _ _) fun m => .same fun m _ => .bind' (agree_cmp _ _) fun o => .ite (fun _ => ?_) fun _ => ?_
  · exact .same fun _ h => by cases h
  unfold Rsa.encrypt encrypt
  exact .bind' (agree_powMod hc _ _ _) fun _ => .rfl'

theorem agree_decryptMessage {ε : Type} {cap : Nat → Nat} (hc : CapReal cap) (key : Rsa.RsaEncryption) (c : List U8)
    (p p' : Rsa.PaddingScheme ε) (hp : ∀ l m n, Agree (p.decode l m n) (p'.decode l m n)) :
    Agree (Rsa.decryptMessage cap key c p) (decryptMessage cap key c p') := by
  unfold Rsa.decryptMessage decryptMessage
  unfold Rsa.decrypt decrypt
  refine .same fun x _ => .bind' (agree_powMod hc _ _ _) fun d => ?_
  dsimp only
  by_cases h : (Big.toBeBytes d).length ≤ (List.replicate c.length 0#8).length
  · have h1 : subU (List.replicate c.length 0#8).length (Big.toBeBytes d).length =
      .ok ((List.replicate c.length 0#8).length - (Big.toBeBytes d).length) := if_pos h
    have h2 : subW 64 (List.replicate c.length 0#8).length (Big.toBeBytes d).length =
      (List.replicate c.length 0#8).length - (Big.toBeBytes d).length := if_pos h
    rw [h1, h2, if_neg (by omega)]
    exact .bind' (hp _ _ _) fun _ => .rfl'
  · have h1 : subU (List.replicate c.length 0#8).length (Big.toBeBytes d).length = .error .overflow := if_neg h
    rw [h1]; exact .inl rfl

/-! ## OAEP -/

theorem agree_mgf1Loop {N : Nat} {hd hr : List U8 → R (Vector U8 N)} (h : ∀ m, Agree (hd m) (hr m)) (seed : List U8)
    (size : Nat) (hs : size + N < 2 ^ 63) : ∀ (F G : Nat) (out : List U8) (c : Nat), F ≤ G → c < 2 ^ 32 → 2 ^ 32 < F + c →
      Agree (Oaep.mgf1Loop hd seed size F out c) (mgf1Loop hr seed size G out c)
  | 0, _, _, _, _, _, _ => by omega
  | F + 1, 0, _, _, _, _, _ => by omega
  | F + 1, G + 1, out, c, hFG, hc, hF => by
    rw [Oaep.mgf1Loop, mgf1Loop]
    refine .ite (fun ho => .bind' (h _) fun d => ?_) fun _ => .rfl'
    have hp : pushAll out.length N = .ok () := if_pos (by omega)
    rw [hp]
    by_cases h1 : c + 1 < 2 ^ 32
    · have e1 : addU32 c 1 = .ok (c + 1) := if_pos h1
      have e2 : addW 32 c 1 = c + 1 := Nat.mod_eq_of_lt h1
      rw [e1, e2]
      exact agree_mgf1Loop h seed size hs F G _ (c + 1) (by omega) h1 (by omega)
    · have e1 : addU32 c 1 = .error .overflow := if_neg h1
      rw [e1]; exact .inl rfl

theorem agree_mgf1 {N : Nat} {hd hr : List U8 → R (Vector U8 N)} (h : ∀ m, Agree (hd m) (hr m)) (seed : List U8)
    (size : Nat) : Agree (Oaep.mgf1 hd seed size) (mgf1 hr seed size) := by
  unfold Oaep.mgf1 mgf1
  by_cases h1 : size + N < 2 ^ 64
  · have e1 : Oaep.addUsize size N = .ok (size + N) := if_pos h1
    have e2 : addW 64 size N = size + N := Nat.mod_eq_of_lt h1
    rw [e1, e2]
    show Agree (Oaep.withCapacity _ >>= _) _
    by_cases h2 : size + N < 2 ^ 63
    · exact .same fun _ _ => .bind' (agree_mgf1Loop h seed size h2 _ _ _ _ (by omega) (by omega) (by omega)) fun _ => .rfl'
    · rw [Oaep.withCapacity, if_neg h2]; exact .rfl'
  · have e1 : Oaep.addUsize size N = .error .overflow := if_neg h1
    rw [e1]; exact .inl rfl

theorem agree_encode {N : Nat} {hd hr : List U8 → R (Vector U8 N)} (h : ∀ m, Agree (hd m) (hr m)) (label m : List U8)
    (n : Nat) : Agree (Oaep.encode hd label m n) (encode hr label m n) := by
  unfold Oaep.encode encode
  refine .bind' (h _) fun l => .ite (fun _ => .same fun _ h => by cases h) fun _ => ?_
  exact .bind' (agree_mgf1 h _ _) fun _ => .same fun _ _ => .bind' (agree_mgf1 h _ _) fun _ => .rfl'

theorem agree_decode {N : Nat} {hd hr : List U8 → R (Vector U8 N)} (h : ∀ m, Agree (hd m) (hr m)) (label m : List U8)
    (n : Nat) : Agree (Oaep.decode hd label m n) (decode hr label m n) := by
  unfold Oaep.decode decode
  refine .same fun _ _ => .ite (fun _ => .rfl') fun _ => .bind' (h _) fun l => .same fun _ _ => .same fun _ _ => ?_
  refine .bind' (agree_mgf1 h _ _) fun _ => .same fun _ _ => .bind_ok (agree_subU 64 _ _) (.bind_ok (agree_subU 64 _ _) ?_)
  exact .bind' (agree_mgf1 h _ _) fun _ => .rfl'

end Verif.Model.Release
