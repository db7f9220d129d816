import Verif.Proof.BigExact
import Verif.Proof.Asn1
import Verif.Model.Oaep
import Verif.Model.Pem
import Verif.Proof.Sha

/-! # The loops of the model do not run out of fuel -/

namespace Verif.Model
open Verif Verif.Spec.Big

/-- The computation ends: with a result or with a panic. -/
def Halts {α : Type} (r : R α) : Prop := r ≠ .error .diverged

theorem halts_ok {α : Type} (a : α) : Halts (.ok a : R α) := by intro h; cases h

theorem halts_pure {α : Type} (a : α) : Halts (pure a : R α) := by intro h; cases h

theorem halts_error {α : Type} {e : Panic} (h : e ≠ .diverged) : Halts (.error e : R α) := by
  intro h'; cases h'; exact h rfl

theorem halts_throw {α : Type} {e : Panic} (h : e ≠ .diverged) : Halts (throw e : R α) := halts_error h

theorem halts_bind {α β : Type} {x : R α} {f : α → R β} (hx : Halts x) (hf : ∀ a, x = .ok a → Halts (f a)) :
    Halts (x >>= f) := by
  cases x with
  | error e =>
    intro h
    exact hx (by rw [show (Except.error e >>= f) = Except.error e from rfl] at h; injection h with h; rw [h])
  | ok a => exact hf a rfl

theorem halts_ite {α : Type} {c : Prop} [Decidable c] {x y : R α} (hx : c → Halts x) (hy : ¬ c → Halts y) :
    Halts (if c then x else y) := by
  by_cases h : c
  · rw [if_pos h]; exact hx h
  · rw [if_neg h]; exact hy h

theorem halts_idx {α : Type} (l : List α) (i : Nat) : Halts (idx l i) := by
  unfold idx; split
  · exact halts_ok _
  · exact halts_error (by decide)

theorem halts_addU32 (a b : Nat) : Halts (addU32 a b) :=
  halts_ite (fun _ => halts_ok _) (fun _ => halts_error (by decide))
theorem halts_mulU32 (a b : Nat) : Halts (mulU32 a b) :=
  halts_ite (fun _ => halts_ok _) (fun _ => halts_error (by decide))
theorem halts_mulU128 (a b : Nat) : Halts (mulU128 a b) :=
  halts_ite (fun _ => halts_ok _) (fun _ => halts_error (by decide))
theorem halts_subU (a b : Nat) : Halts (subU a b) :=
  halts_ite (fun _ => halts_ok _) (fun _ => halts_error (by decide))
theorem halts_copyInto {N : Nat} (d : Vector U8 N) (o : Nat) (s : List U8) : Halts (copyInto d o s) :=
  halts_ite (fun _ => halts_ok _) (fun _ => halts_error (by decide))

/-- Take a computation apart into its steps. -/
macro "halt_step" : tactic => `(tactic| first
  | assumption
  | exact halts_ok _
  | exact halts_pure _
  | exact halts_error (by decide)
  | exact halts_throw (by decide)
  | exact halts_idx _ _
  | exact halts_addU32 _ _
  | exact halts_mulU32 _ _
  | exact halts_mulU128 _ _
  | exact halts_subU _ _
  | exact halts_copyInto _ _ _
  | (refine halts_bind ?_ (fun _ _ => ?_))
  | (refine halts_ite (fun _ => ?_) (fun _ => ?_)))

namespace Big

theorem halts_bitsUsed (x : BigUint) : Halts (bitsUsed x) := by
  unfold bitsUsed ilog2
  repeat' halt_step

theorem halts_isSet (x : BigUint) (i : Nat) : Halts (isSet x i) := by
  unfold isSet
  repeat' first | exact halts_bitsUsed _ | halt_step

theorem halts_cmpLoop (x y : BigUint) (n : Nat) : Halts (cmpLoop x y n) := by
  induction n with
  | zero => exact halts_ok _
  | succ n ih =>
    unfold cmpLoop
    repeat' first | exact halts_isSet _ _ | halt_step

theorem halts_cmp (x y : BigUint) : Halts (cmp x y) := by
  unfold cmp
  refine halts_bind (halts_bitsUsed x) fun a _ => halts_bind (halts_bitsUsed y) fun b _ => ?_
  split
  · exact halts_bind (halts_bitsUsed x) fun _ _ => halts_cmpLoop _ _ _
  · exact halts_pure _

theorem halts_update (x : BigUint) (i : Nat) (b : Bool) : Halts (update x i b) := by
  unfold update
  repeat' halt_step

theorem halts_clearLoop (x : BigUint) (i n : Nat) : Halts (clearLoop x i n) := by
  induction n generalizing x i with
  | zero => exact halts_ok _
  | succ n ih => exact halts_bind (halts_update _ _ _) fun _ _ => ih _ _

theorem halts_add (x y : BigUint) : Halts (add x y) := by rw [add_eq]; exact halts_ok _
theorem halts_addByte (x : BigUint) (b : U8) : Halts (addByte x b) := by rw [addByte_eq]; exact halts_ok _

theorem halts_subAssign (cap : Nat → Nat) (x y : BigUint) : Halts (subAssign cap x y) := by
  unfold subAssign
  repeat' first
    | exact halts_bitsUsed _ | exact halts_add _ _ | exact halts_addByte _ _ | exact halts_clearLoop _ _ _ | halt_step

theorem halts_shr (x : BigUint) (k : Nat) : Halts (shr x k) := by
  unfold shr
  repeat' halt_step

theorem halts_remLoop (cap : Nat → Nat) (x m : BigUint) (n : Nat) : Halts (remLoop cap x m n) := by
  induction n generalizing x m with
  | zero => exact halts_ok _
  | succ n ih =>
    unfold remLoop
    repeat' first
      | exact halts_cmp _ _ | exact halts_subAssign _ _ _ | exact halts_shr _ _ | exact ih _ _ | halt_step

theorem halts_rem (cap : Nat → Nat) (x y : BigUint) : Halts (rem cap x y) := by
  unfold rem
  repeat' first | exact halts_bitsUsed _ | exact halts_remLoop _ _ _ _ | halt_step

theorem halts_fromU128 (v : U128) : Halts (fromU128 v) := by rw [fromU128_eq]; exact halts_ok _
theorem halts_fromBeBytes (l : List U8) : Halts (fromBeBytes l) := by rw [fromBeBytes_eq]; exact halts_ok _
theorem halts_asU128 (x : BigUint) : Halts (asU128 x) := by
  unfold asU128
  repeat' halt_step

end Big

namespace Rsa
open Verif.Model.Big

theorem halts_mulModLoop (cap : Nat → Nat) (m : BigUint) (fuel : Nat) (r a : BigUint) (n : Nat) (h : n.size < fuel) :
    Halts (mulModLoop cap m fuel r a (big n)) := by
  induction fuel generalizing r a n with
  | zero => omega
  | succ fuel ih =>
    unfold mulModLoop
    refine halts_bind (halts_bitsUsed _) fun k _ => ?_
    by_cases hn : n = 0
    · -- the loop is over
      rename_i hk
      have : k = 0 := by
        rw [hn, big_zero] at hk
        exact (Except.ok.inj hk).symm
      subst this
      rw [if_neg (by simp)]
      exact halts_ok _
    · have hlen : 0 < (big n).bytes.length := by
        apply Nat.pos_of_ne_zero
        intro h0
        have := (length_le_iff (n := n) (k := 0)).1 (by omega)
        omega
      have hs : shr (big n) 1 = .ok (big (n / 2 ^ 1)) := shr_big n 1 (by omega)
      have hlt : (n / 2 ^ 1).size < n.size := by
        have h1 := Nat.size_pos.2 (show 0 < n by omega)
        have h2 : n < 2 ^ n.size := Nat.lt_size_self n
        have : (n / 2 ^ 1).size ≤ n.size - 1 := by
          rw [Nat.size_le, Nat.div_lt_iff_lt_mul (by omega), ← Nat.pow_add]
          have e : n.size - 1 + 1 = n.size := by omega
          rw [e]; exact h2
        omega
      refine halts_ite (fun _ => ?_) (fun _ => halts_ok _)
      have key : ∀ r' : BigUint, Halts (do
          let a ← rem cap (shl a 1) m
          let b ← shr (big n) 1
          mulModLoop cap m fuel r' a b) := fun r' =>
        halts_bind (halts_rem _ _ _) fun a' _ => halts_bind (halts_shr _ _) fun b' hb => by
          rw [hs] at hb; cases hb
          exact ih _ _ _ (by omega)
      refine halts_bind (halts_isSet _ _) fun c _ => ?_
      refine halts_ite (fun _ => ?_) (fun _ => ?_)
      · exact halts_bind (halts_add r a) fun s _ => halts_bind (halts_rem cap s m) fun r' _ => key r'
      · exact halts_bind (halts_ok _) fun r' _ => key r'

theorem halts_mulMod (cap : Nat → Nat) (a b m : BigUint) : Halts (mulMod cap a b m) := by
  unfold mulMod
  refine halts_bind (halts_fromU128 _) fun r _ => ?_
  by_cases hb : Normalised b
  · have e := eq_big hb
    have hs := size_val_le b
    rw [e] at hs ⊢
    rw [val_big] at hs
    exact halts_mulModLoop cap m _ r a _ (by omega)
  · unfold mulModLoop
    obtain ⟨e, he⟩ := bitsUsed_panics hb
    have h := halts_bitsUsed b
    exact halts_bind h fun k hk => by rw [he] at hk; cases hk

theorem halts_powModLoop (cap : Nat → Nat) (p m : BigUint) (k i : Nat) (r a : BigUint) :
    Halts (powModLoop cap p m k i r a) := by
  induction k generalizing i r a with
  | zero => exact halts_ok _
  | succ k ih =>
    unfold powModLoop
    repeat' first | exact halts_isSet _ _ | exact halts_mulMod _ _ _ _ | exact ih _ _ _ | halt_step

theorem halts_powMod (cap : Nat → Nat) (a p m : BigUint) : Halts (powMod cap a p m) := by
  unfold powMod
  repeat' first | exact halts_bitsUsed _ | exact halts_fromU128 _ | exact halts_powModLoop _ _ _ _ _ _ _ | halt_step

theorem halts_divU (a b : Nat) : Halts (divU a b) :=
  halts_ite (fun _ => halts_error (by decide)) (fun _ => halts_ok _)
theorem halts_i128 (t : Int) : Halts (i128 t) :=
  halts_ite (fun _ => halts_ok _) (fun _ => halts_error (by decide))

theorem halts_inverseLoop (fuel r newR : Nat) (t newT : Int) (h : newR < fuel) :
    Halts (inverseLoop fuel r newR t newT) := by
  induction fuel generalizing r newR t newT with
  | zero => omega
  | succ fuel ih =>
    unfold inverseLoop
    refine halts_ite (fun h0 => ?_) (fun _ => halts_ok _)
    refine halts_bind (halts_divU _ _) fun q hq => ?_
    refine halts_bind (halts_mulU128 _ _) fun qr hqr => ?_
    refine halts_bind (halts_subU _ _) fun s hs => ?_
    refine halts_bind (halts_i128 _) fun u _ => ?_
    refine halts_bind (halts_i128 _) fun v _ => ?_
    apply ih
    unfold divU at hq
    rw [if_neg h0] at hq
    cases hq
    unfold mulU128 at hqr
    split at hqr
    · cases hqr
      unfold subU at hs
      split at hs
      · cases hs
        have h1 := Nat.div_add_mod r newR
        have h2 := Nat.mod_lt r (show newR > 0 by omega)
        have h3 : r / newR * newR = newR * (r / newR) := Nat.mul_comm _ _
        omega
      · cases hs
    · cases hqr

theorem halts_inverse (a n : Nat) : Halts (inverse a n) := by
  unfold inverse
  refine halts_bind (halts_inverseLoop _ _ _ _ _ (by omega)) fun x _ => ?_
  repeat' first | exact halts_i128 _ | halt_step

theorem halts_unwrapResult {ε α : Type} (x : Except ε α) : Halts (unwrapResult x) := by
  cases x
  · exact halts_error (by decide)
  · exact halts_ok _
theorem halts_unwrapOption {α : Type} (x : Option α) : Halts (unwrapOption x) := by
  cases x
  · exact halts_error (by decide)
  · exact halts_ok _

theorem halts_lcm (a b : Nat) : Halts (lcm a b) := by
  unfold lcm
  repeat' first | exact halts_divU _ _ | halt_step

theorem halts_createKeys (p q e : BigUint) : Halts (createKeys p q e) := by
  unfold createKeys
  repeat' first
    | exact halts_asU128 _ | exact halts_unwrapResult _ | exact halts_unwrapOption _ | exact halts_lcm _ _
    | exact halts_inverse _ _ | exact halts_fromU128 _ | halt_step

theorem halts_encryptMessage {ε : Type} (cap : Nat → Nat) (key : RsaEncryption) (m : List U8) (s : PaddingScheme ε)
    (hs : ∀ l m k, Halts (s.encode l m k)) : Halts (encryptMessage cap key m s) := by
  unfold encryptMessage encrypt
  repeat' first
    | exact hs _ _ _ | exact halts_bitsUsed _ | exact halts_fromBeBytes _ | exact halts_cmp _ _ | exact halts_powMod _ _ _ _
    | halt_step

theorem halts_decryptMessage {ε : Type} (cap : Nat → Nat) (key : RsaEncryption) (c : List U8) (s : PaddingScheme ε)
    (hs : ∀ l m k, Halts (s.decode l m k)) : Halts (decryptMessage cap key c s) := by
  unfold decryptMessage decrypt
  repeat' first
    | exact hs _ _ _ | exact halts_fromBeBytes _ | exact halts_powMod _ _ _ _ | exact halts_unwrapResult _ | halt_step

end Rsa

namespace Oaep

theorem halts_mgf1Loop {N : Nat} (hash : List U8 → R (Vector U8 N)) (hh : ∀ l, Halts (hash l)) (seed : List U8)
    (size fuel : Nat) (out : List U8) (c : Nat) (h : 2 ^ 32 < fuel + c) (hc : c < 2 ^ 32) :
    Halts (mgf1Loop hash seed size fuel out c) := by
  induction fuel generalizing out c with
  | zero => omega
  | succ fuel ih =>
    unfold mgf1Loop
    refine halts_ite (fun _ => ?_) (fun _ => halts_ok _)
    refine halts_bind (hh _) fun d _ => ?_
    refine halts_bind (halts_addU32 _ _) fun c' hc' => ?_
    unfold addU32 at hc'
    split at hc'
    · cases hc'; exact ih _ _ (by omega) (by omega)
    · cases hc'

theorem halts_mgf1 {N : Nat} (hash : List U8 → R (Vector U8 N)) (hh : ∀ l, Halts (hash l)) (seed : List U8) (size : Nat) :
    Halts (mgf1 hash seed size) := by
  unfold mgf1 withCapacity addUsize
  have := halts_mgf1Loop hash hh seed size (2 ^ 32 + 1) [] 0 (by omega) (by omega)
  repeat' halt_step

theorem halts_xorSlices (a b : List U8) : Halts (xorSlices a b) :=
  halts_ite (fun _ => halts_ok _) (fun _ => halts_error (by decide))
theorem halts_slice (l : List U8) (a b : Nat) : Halts (slice l a b) :=
  halts_ite (fun _ => halts_ok _) (fun _ => halts_error (by decide))

theorem halts_encode {N : Nat} (hash : List U8 → R (Vector U8 N)) (hh : ∀ l, Halts (hash l)) (label m : List U8) (k : Nat) :
    Halts (encode hash label m k) := by
  unfold encode
  repeat' first | exact hh _ | exact halts_mgf1 _ hh _ _ | exact halts_xorSlices _ _ | halt_step

theorem halts_decode {N : Nat} (hash : List U8 → R (Vector U8 N)) (hh : ∀ l, Halts (hash l)) (label em : List U8) (k : Nat) :
    Halts (decode hash label em k) := by
  unfold decode
  repeat' first
    | exact hh _ | exact halts_mgf1 _ hh _ _ | exact halts_xorSlices _ _ | exact halts_slice _ _ _ | halt_step
    | split

end Oaep

end Verif.Model

namespace Verif.Model
open Verif Verif.Model.Asn1 Verif.Model.RsaAsn1

theorem halts_tryFrom (bytes : List U8) : Halts (tryFrom bytes) := tryFrom_terminates bytes

theorem halts_privateFromAsn1 (a : Asn1) : Halts (RsaAsn1.PrivateKey.fromAsn1 a) := by
  unfold RsaAsn1.PrivateKey.fromAsn1
  repeat' first | exact Big.halts_fromBeBytes _ | halt_step | split

theorem halts_publicFromAsn1 (a : Asn1) : Halts (RsaAsn1.PublicKey.fromAsn1 a) := by
  unfold RsaAsn1.PublicKey.fromAsn1
  repeat' first | exact Big.halts_fromBeBytes _ | halt_step | split

theorem halts_privateInfo (a : Asn1) : Halts (RsaAsn1.PrivateKeyInfo.fromAsn1 a) := by
  unfold RsaAsn1.PrivateKeyInfo.fromAsn1
  repeat' first | exact halts_tryFrom _ | exact halts_privateFromAsn1 _ | halt_step | split

theorem halts_publicInfo (a : Asn1) : Halts (RsaAsn1.SubjectPublicKeyInfo.fromAsn1 a) := by
  unfold RsaAsn1.SubjectPublicKeyInfo.fromAsn1
  repeat' first | exact halts_tryFrom _ | exact halts_publicFromAsn1 _ | halt_step | split

theorem halts_privateKeyTryFrom (p : Pem.PEM) : Halts (Pem.privateKeyTryFrom p) := by
  unfold Pem.privateKeyTryFrom
  repeat' first | exact halts_tryFrom _ | exact halts_privateInfo _ | halt_step | split

theorem halts_publicKeyTryFrom (p : Pem.PEM) : Halts (Pem.publicKeyTryFrom p) := by
  unfold Pem.publicKeyTryFrom
  repeat' first | exact halts_tryFrom _ | exact halts_publicInfo _ | halt_step | split

end Verif.Model
