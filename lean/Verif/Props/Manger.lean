import Verif.Model.Ending
import Verif.Props.Scheme
import Verif.Props.RsaRange

/-! # C126: what the panic messages of RSA decryption reveal

The attack of J. Manger (CRYPTO 2001), in a form that is easy to bound. -/

namespace Verif.Props
open Verif Verif.Model.Big Verif.Model.Rsa Verif.Spec.Big
open _root_.Verif.Model.Ending (Ending decryptEnding unwrapText beforeUnwrap)

/-! ## The attacker -/

/-- An attacker who asks for the decryption of ciphertexts and learns one bit from each. -/
inductive Attack (α : Type) where
  | done (a : α)
  | ask (ct : List U8) (next : Bool → Attack α)

/-- What the attacker finds if the questions are answered by `answer`. -/
def Attack.finds {α : Type} (answer : List U8 → Bool) : Attack α → α
  | .done a => a
  | .ask ct next => (next (answer ct)).finds answer

/-- The number of questions. -/
def Attack.questions {α : Type} (answer : List U8 → Bool) : Attack α → Nat
  | .done _ => 0
  | .ask ct next => (next (answer ct)).questions answer + 1

/-- `f` times the unknown number: the question whose ciphertext is `c * f ^ e`. -/
def blinded (n e c k f : Nat) : List U8 := natToBE k (c * f ^ e % n)

/-- Step 1: double `h` as long as twice `h` times the unknown number starts with a zero byte. -/
def scale {α : Type} (q : Nat → List U8) : Nat → Nat → (Nat → Attack α) → Attack α
  | 0, h, next => next h
  | t + 1, h, next => .ask (q (2 * h)) fun small => if small then scale q t (2 * h) next else next h

/-- Step 2: add `h` until the product has passed the modulus. -/
def climb {α : Type} (q : Nat → List U8) (h : Nat) : Nat → Nat → (Nat → Attack α) → Attack α
  | 0, f, next => next f
  | t + 1, f, next => .ask (q f) fun small => if small then next f else climb q h t (f + h) next

/-- Step 3: double `f`, keeping the product just above a multiple of the modulus. -/
def refine {α : Type} (q : Nat → List U8) (h : Nat) : Nat → Nat → (Nat → Attack α) → Attack α
  | 0, f, next => next f
  | t + 1, f, next =>
    .ask (q (2 * f)) fun small =>
      if small then refine q h t (2 * f) next
      else .ask (q (2 * f - h)) fun small =>
        if small then refine q h t (2 * f - h) next else refine q h t (2 * f - 2 * h) next

/-- The attack: from the public key and a ciphertext, the number that the ciphertext decrypts to. -/
def attack (n e : Nat) (ct : List U8) : Attack Nat :=
  let k := (n.size - 1) / 8 + 1
  let bits := 8 * (k - 1)
  let q := blinded n e (beVal ct) k
  if beVal ct % n = 0 then .done 0
  else
    scale q bits 1 fun h => climb q h 512 (2 * h) fun f => refine q h bits f fun f =>
      .done ((2 ^ bits * n + f - 1) / f)

/-! ## Why it works -/

section
variable {α : Type} (answer : List U8 → Bool) (q : Nat → List U8) (n B m : Nat)

theorem scale_spec (hB : 2 * B ≤ n) (hq : ∀ f, answer (q f) = decide (f * m % n < B)) (t h : Nat) (hh : h * m < B)
    (hm : B ≤ 2 ^ t * (h * m)) (next : Nat → Attack α) :
    ∃ h', h' * m < B ∧ B ≤ 2 * h' * m ∧ (scale q t h next).finds answer = (next h').finds answer ∧
      (scale q t h next).questions answer ≤ (next h').questions answer + t := by
  induction t generalizing h with
  | zero => omega
  | succ t ih =>
    unfold scale
    simp only [Attack.finds, Attack.questions, hq]
    have e : 2 * h * m % n = 2 * (h * m) := by
      rw [Nat.mul_assoc, Nat.mod_eq_of_lt (by omega)]
    rw [e]
    by_cases hlt : 2 * (h * m) < B
    · simp only [hlt, decide_true, if_true]
      obtain ⟨h', h1, h2, h3, h4⟩ := ih (2 * h) (by rw [Nat.mul_assoc]; exact hlt)
        (by rw [Nat.mul_assoc, ← Nat.mul_assoc, ← Nat.pow_succ]; exact hm)
      exact ⟨h', h1, h2, h3, by omega⟩
    · simp only [hlt, decide_false]
      refine ⟨h, hh, by rw [Nat.mul_assoc]; omega, rfl, by simp⟩

theorem climb_spec (hB : 2 * B ≤ n) (hq : ∀ f, answer (q f) = decide (f * m % n < B)) (h : Nat) (h1 : h * m < B)
    (h2 : B ≤ 2 * (h * m)) (t f : Nat) (hf : B ≤ f * m) (hfn : f * m < n + B) (ht : 2 * n + B ≤ 2 * (f * m) + t * B)
    (next : Nat → Attack α) :
    ∃ f', n ≤ f' * m ∧ f' * m < n + B ∧ (climb q h t f next).finds answer = (next f').finds answer ∧
      (climb q h t f next).questions answer ≤ (next f').questions answer + t := by
  induction t generalizing f with
  | zero => exact ⟨f, by omega, hfn, rfl, Nat.le_refl _⟩
  | succ t ih =>
    unfold climb
    simp only [Attack.finds, Attack.questions, hq]
    by_cases hn : f * m < n
    · have e : f * m % n = f * m := Nat.mod_eq_of_lt hn
      rw [e]
      simp only [show ¬ f * m < B by omega, decide_false]
      have e2 : (f + h) * m = f * m + h * m := Nat.add_mul _ _ _
      have ht' : 2 * n + B ≤ 2 * (f * m) + (t * B + B) := by rw [← Nat.succ_mul]; exact ht
      obtain ⟨f', g1, g2, g3, g4⟩ := ih (f + h) (by omega) (by omega) (by rw [e2]; omega)
      exact ⟨f', g1, g2, g3, by simp; omega⟩
    · have e : f * m % n = f * m - n := by
        rw [Nat.mod_eq_sub_mod (by omega), Nat.mod_eq_of_lt (by omega)]
      rw [e]
      simp only [show f * m - n < B by omega, decide_true, if_true]
      exact ⟨f, by omega, hfn, rfl, by omega⟩

theorem refine_spec (hB : 2 * B ≤ n) (hq : ∀ f, answer (q f) = decide (f * m % n < B)) (h : Nat) (h1 : h * m < B)
    (h2 : B ≤ 2 * (h * m)) (t i f : Nat) (hf : i * n ≤ f * m) (hfn : f * m < i * n + B) (next : Nat → Attack α) :
    ∃ f', 2 ^ t * i * n ≤ f' * m ∧ f' * m < 2 ^ t * i * n + B ∧
      (refine q h t f next).finds answer = (next f').finds answer ∧
      (refine q h t f next).questions answer ≤ (next f').questions answer + 2 * t := by
  induction t generalizing i f with
  | zero => exact ⟨f, by simpa using hf, by simpa using hfn, rfl, Nat.le_refl _⟩
  | succ t ih =>
    unfold refine
    simp only [Attack.finds, Attack.questions, hq]
    have hpow : 2 ^ (t + 1) * i = 2 ^ t * (2 * i) := by rw [Nat.pow_succ, Nat.mul_assoc]
    rw [hpow]
    have hmod : ∀ g, 2 * i * n ≤ g * m → g * m < 2 * i * n + n → g * m % n = g * m - 2 * i * n := by
      intro g g1 g2
      rw [← Nat.mod_eq_of_lt (show g * m - 2 * i * n < n by omega)]
      conv => lhs; rw [show g * m = (g * m - 2 * i * n) + 2 * i * n by omega]
      rw [Nat.add_mul_mod_self_right]
    have d1 : 2 * f * m = 2 * (f * m) := Nat.mul_assoc _ _ _
    have d2 : 2 * i * n = 2 * (i * n) := Nat.mul_assoc _ _ _
    have d3 : (2 * f - h) * m = 2 * (f * m) - h * m := by rw [Nat.sub_mul, d1]
    have d4 : (2 * f - 2 * h) * m = 2 * (f * m) - 2 * (h * m) := by rw [Nat.sub_mul, d1, Nat.mul_assoc 2 h m]
    rw [hmod (2 * f) (by omega) (by omega)]
    by_cases c1 : 2 * f * m - 2 * i * n < B
    · simp only [c1, decide_true, if_true]
      obtain ⟨f', g1, g2, g3, g4⟩ := ih (2 * i) (2 * f) (by omega) (by omega)
      exact ⟨f', g1, g2, g3, by omega⟩
    · simp only [c1, decide_false, Bool.false_eq_true, if_false, Attack.finds, Attack.questions, hq]
      rw [hmod (2 * f - h) (by omega) (by omega)]
      by_cases c2 : (2 * f - h) * m - 2 * i * n < B
      · simp only [c2, decide_true, if_true]
        obtain ⟨f', g1, g2, g3, g4⟩ := ih (2 * i) (2 * f - h) (by omega) (by omega)
        exact ⟨f', g1, g2, g3, by omega⟩
      · simp only [c2, decide_false, Bool.false_eq_true, if_false]
        obtain ⟨f', g1, g2, g3, g4⟩ := ih (2 * i) (2 * f - 2 * h) (by omega) (by omega)
        exact ⟨f', g1, g2, g3, by omega⟩

end

theorem attack_spec (answer : List U8 → Bool) (n e : Nat) (ct : List U8) (m : Nat) (hn : 2 ≤ n)
    (hB : 2 * 256 ^ ((n.size - 1) / 8) ≤ n) (hm : m < 256 ^ ((n.size - 1) / 8))
    (h0 : beVal ct % n = 0 ↔ m = 0)
    (hq : ∀ f, answer (blinded n e (beVal ct) ((n.size - 1) / 8 + 1) f) = decide (f * m % n < 256 ^ ((n.size - 1) / 8))) :
    (attack n e ct).finds answer = m ∧ (attack n e ct).questions answer ≤ 24 * ((n.size - 1) / 8) + 512 := by
  unfold attack
  simp only [Nat.add_sub_cancel]
  by_cases hc : beVal ct % n = 0
  · rw [if_pos hc]
    exact ⟨(h0.1 hc).symm, Nat.zero_le _⟩
  · rw [if_neg hc]
    have hm0 : 0 < m := Nat.pos_of_ne_zero fun h => hc (h0.2 h)
    have hsz : 0 < n.size := Nat.size_pos.2 (by omega)
    have hn8 : n < 256 * 256 ^ ((n.size - 1) / 8) := by
      rw [← Nat.pow_succ', show (256 : Nat) = 2 ^ 8 by decide, ← Nat.pow_mul]
      exact Nat.lt_of_lt_of_le (Nat.lt_size_self n) (Nat.pow_le_pow_right (by decide) (by omega))
    have hBp : 2 ^ (8 * ((n.size - 1) / 8)) = 256 ^ ((n.size - 1) / 8) := by
      rw [Nat.pow_mul]
    revert hq hB hm hn8 hBp
    generalize (n.size - 1) / 8 = k1
    generalize 256 ^ k1 = B
    intro hB hm hq hn8 hBp
    have hB0 : 0 < B := by omega
    generalize blinded n e (beVal ct) (k1 + 1) = q at hq
    obtain ⟨h, a1, a2, a3, a4⟩ := scale_spec answer q n B m hB hq (8 * k1) 1 (by omega)
      (by rw [hBp, Nat.one_mul]; exact Nat.le_mul_of_pos_right _ hm0)
      (fun h => climb q h 512 (2 * h) fun f => refine q h (8 * k1) f fun f => .done ((2 ^ (8 * k1) * n + f - 1) / f))
    have a2' : B ≤ 2 * (h * m) := by rw [← Nat.mul_assoc]; exact a2
    have e2 : 2 * h * m = 2 * (h * m) := Nat.mul_assoc _ _ _
    obtain ⟨f, b1, b2, b3, b4⟩ := climb_spec answer q n B m hB hq h a1 a2' 512 (2 * h) (by omega) (by omega) (by omega)
      (fun f => refine q h (8 * k1) f fun f => .done ((2 ^ (8 * k1) * n + f - 1) / f))
    obtain ⟨g, c1, c2, c3, c4⟩ := refine_spec answer q n B m hB hq h a1 a2' (8 * k1) 1 f (by omega) (by omega)
      (fun f => .done ((2 ^ (8 * k1) * n + f - 1) / f))
    rw [a3, b3, c3]
    simp only [Attack.finds, Attack.questions] at *
    rw [hBp, Nat.mul_one] at *
    refine ⟨?_, by omega⟩
    have hBB : B * B ≤ B * n := Nat.mul_le_mul_left _ (by omega)
    have hg : B < g := by
      by_contra hle
      have : g * m < B * B := Nat.lt_of_le_of_lt (Nat.mul_le_mul_right m (Nat.not_lt.1 hle)) (Nat.mul_lt_mul_of_pos_left hm hB0)
      omega
    apply Nat.div_eq_of_lt_le
    · rw [Nat.mul_comm m g]
      omega
    · rw [Nat.succ_mul, Nat.mul_comm m g]
      omega

/-! ## C126 -/

/-- The one bit that the attacker takes from an answer: whether the panic message does not say that the first byte is not
zero. -/
def startsWithZero (ending : Ending) : Bool :=
  ending ≠ .unwrapFails "called `Result::unwrap()` on an `Err` value: \"first byte is not 0\"".toList

/-- C126: `decryptEnding` is `decrypt_message` with the text of the panic: without the text it is the model of
`decrypt_message` used everywhere else. -/
theorem C126_same (cap : Nat → Nat) (self : RsaEncryption) (ct : List U8) :
    decryptMessage cap self ct Model.Oaep.rsaPadding =
      match decryptEnding cap self ct with
      | .returns m => .ok m
      | .unwrapFails _ => .error .unwrap
      | .panics p => .error p := by
  have h : decryptMessage cap self ct Model.Oaep.rsaPadding = beforeUnwrap cap self ct >>= unwrapResult := by
    unfold decryptMessage beforeUnwrap
    simp only [bind_assoc]
  rw [h]
  unfold decryptEnding
  rcases beforeUnwrap cap self ct with p | e | m <;> rfl

theorem decode_says {N : Nat} (hash : List U8 → R (Vector U8 N)) (label : List U8) (k : Nat) (b : U8) (rest : List U8) :
    Model.Oaep.decode hash label (b :: rest) k = .ok (.error .firstByteNotZero) ↔ b ≠ 0#8 := by
  unfold Model.Oaep.decode
  have e : idx (b :: rest) 0 = .ok b := rfl
  simp only [e, bind, Except.bind]
  by_cases hb : b ≠ 0#8
  · rw [if_pos hb]
    exact ⟨fun _ => hb, fun _ => rfl⟩
  · rw [if_neg hb]
    refine ⟨fun h => ?_, fun h => absurd h hb⟩
    exfalso
    revert h
    repeat' split
    all_goals intro h
    all_goals cases h

theorem beforeUnwrap_eq {cap : Nat → Nat} (hc : CapOk cap) (d n : Nat) (hn : 2 ≤ n) (hsn : n.size ≤ 2 ^ 31 - 8)
    (hsd : d.size ≤ 2 ^ 32 - 8) (ct : List U8) (hct : (beVal ct).size ≤ 2 ^ 31 - 8) (hlt : beVal ct ^ d % n < 256 ^ ct.length) :
    beforeUnwrap cap ⟨big d, big n⟩ ct = Model.Oaep.rsaPadding.decode [] (natToBE ct.length (beVal ct ^ d % n)) ct.length := by
  have e1 := powMod_ok hc (beVal ct) d n hn hsn hct hsd
  unfold beforeUnwrap decrypt
  simp only [fromBeBytes_eq, e1, bind, Except.bind, List.length_replicate, Model.Oaep.length_toBeBytes]
  generalize beVal ct ^ d % n = m at hlt
  have hl : (big m).bytes.length ≤ ct.length := by rw [length_le_iff]; omega
  have e2 : subU ct.length (big m).bytes.length = .ok (ct.length - (big m).bytes.length) := by
    unfold subU; rw [if_pos hl]
  rw [e2]
  simp only
  rw [Model.Oaep.zeros_toBeBytes _ _ hl, length_natToBE]

/-- C126: with a ciphertext of the length of the modulus the text appears exactly if the decrypted number, written with the
length of the modulus, does not start with a zero byte. -/
theorem C126_text {cap : Nat → Nat} (hc : CapOk cap) (d n : Nat) (hn : 2 ≤ n) (hsn : n.size ≤ 2 ^ 31 - 8)
    (hsd : d.size ≤ 2 ^ 32 - 8) (ct : List U8) (hct : ct.length = (n.size - 1) / 8 + 1) :
    startsWithZero (decryptEnding cap ⟨big d, big n⟩ ct) = decide (beVal ct ^ d % n < 256 ^ ((n.size - 1) / 8)) := by
  have hsz : (beVal ct).size ≤ 2 ^ 31 - 8 := by
    have h2 : (beVal ct).size ≤ 8 * ct.length := by
      rw [Nat.size_le, Nat.pow_mul]
      exact Model.Oaep.beVal_lt ct
    omega
  have hv : beVal ct ^ d % n < n := Nat.mod_lt _ (by omega)
  have hn8 : n < 256 ^ ((n.size - 1) / 8 + 1) := by
    rw [show (256 : Nat) = 2 ^ 8 by decide, ← Nat.pow_mul]
    exact Nat.lt_of_lt_of_le (Nat.lt_size_self n) (Nat.pow_le_pow_right (by decide) (by omega))
  have hb := beforeUnwrap_eq hc d n hn hsn hsd ct hsz (by rw [hct]; omega)
  rw [hct] at hb
  generalize beVal ct ^ d % n = v at hb hv
  obtain ⟨b, rest, hbr⟩ : ∃ b rest, natToBE ((n.size - 1) / 8 + 1) v = b :: rest := by
    cases h : natToBE ((n.size - 1) / 8 + 1) v with
    | nil => have := congrArg List.length h; rw [length_natToBE] at this; simp at this
    | cons b rest => exact ⟨b, rest, rfl⟩
  have hiff : b ≠ 0#8 ↔ ¬ v < 256 ^ ((n.size - 1) / 8) := by
    have e := beVal_natToBE ((n.size - 1) / 8 + 1) v
    have hl := congrArg List.length hbr
    rw [length_natToBE, List.length_cons] at hl
    have hl : rest.length = (n.size - 1) / 8 := by omega
    rw [hbr, Model.Oaep.beVal_cons, Nat.mod_eq_of_lt (by omega), hl] at e
    have hr := Model.Oaep.beVal_lt rest
    rw [hl] at hr
    constructor
    · intro hb0 hlt
      have : 1 ≤ b.toNat := by
        rcases Nat.eq_zero_or_pos b.toNat with h | h
        · exact absurd (BitVec.eq_of_toNat_eq h) hb0
        · exact h
      have := Nat.mul_le_mul_right (256 ^ ((n.size - 1) / 8)) this
      omega
    · rintro hge rfl
      apply hge
      simp at e
      omega
  have hd := decode_says Model.Sha.sha256 [] ((n.size - 1) / 8 + 1) b rest
  rw [← hbr] at hd
  change Model.Oaep.rsaPadding.decode [] _ _ = _ ↔ _ at hd
  rw [← hb, hiff] at hd
  have hs : startsWithZero (decryptEnding cap ⟨big d, big n⟩ ct) = true ↔
      ¬ beforeUnwrap cap ⟨big d, big n⟩ ct = .ok (.error .firstByteNotZero) := by
    unfold startsWithZero decryptEnding
    rcases beforeUnwrap cap ⟨big d, big n⟩ ct with p | e | m
    · simp
    · cases e <;> decide +kernel
    · simp
  rw [Bool.eq_iff_iff, hs, hd, not_not, decide_eq_true_iff]

theorem pow_cancel (p q e d : Nat) (key : KeyPair p q e d) (x : Nat) : x ^ (e * d) % (p * q) = x % (p * q) := by
  have hpos : 0 < p * q := Nat.mul_pos key.p_prime.pos key.q_prime.pos
  have := Model.Rsa.rsa_correct p q e d (x % (p * q)) key.p_prime key.q_prime key.distinct key.inverse (Nat.mod_lt _ hpos)
  rwa [← Nat.pow_mod] at this

/-- C126: an attacker who has the public key `(e, n)` and a ciphertext that decrypts to a number with a zero first byte finds
that number by asking for the decryption of other ciphertexts, if the panic messages show which of them say that the first
byte is not zero. At most 24 questions for each byte of the modulus and 512 more. The highest byte of the modulus has to be
at least 2 (in RSA keys it is usually at least 128). -/
theorem C126_attack {cap : Nat → Nat} (hc : CapOk cap) (p q e d : Nat) (key : KeyPair p q e d)
    (hB : 2 * 256 ^ (((p * q).size - 1) / 8) ≤ p * q) (ct : List U8)
    (hct : beVal ct ^ d % (p * q) < 256 ^ (((p * q).size - 1) / 8)) :
    (attack (p * q) e ct).finds (fun c => startsWithZero (decryptEnding cap ⟨big d, big (p * q)⟩ c)) =
      beVal ct ^ d % (p * q) ∧
    (attack (p * q) e ct).questions (fun c => startsWithZero (decryptEnding cap ⟨big d, big (p * q)⟩ c)) ≤
      24 * (((p * q).size - 1) / 8) + 512 := by
  have hn : 2 ≤ p * q := Nat.le_trans key.p_prime.two_le (Nat.le_mul_of_pos_right p key.q_prime.pos)
  have hx := pow_cancel p q e d key
  have hd0 : d ≠ 0 := by
    rintro rfl
    have := hx 0
    rw [Nat.mul_zero, Nat.pow_zero, Nat.zero_mod, Nat.mod_eq_of_lt (by omega)] at this
    omega
  have he0 : e ≠ 0 := by
    rintro rfl
    have := hx 0
    rw [Nat.zero_mul, Nat.pow_zero, Nat.zero_mod, Nat.mod_eq_of_lt (by omega)] at this
    omega
  have hn8 : p * q < 256 ^ (((p * q).size - 1) / 8 + 1) := by
    rw [show (256 : Nat) = 2 ^ 8 by decide, ← Nat.pow_mul]
    exact Nat.lt_of_lt_of_le (Nat.lt_size_self _) (Nat.pow_le_pow_right (by decide) (by omega))
  refine attack_spec _ (p * q) e ct _ hn hB hct ?_ ?_
  · constructor
    · intro h
      rw [Nat.pow_mod, h, Nat.zero_pow (Nat.pos_of_ne_zero hd0), Nat.zero_mod]
    · intro h
      rw [← hx, Nat.mul_comm, Nat.pow_mul, Nat.pow_mod, h, Nat.zero_pow (Nat.pos_of_ne_zero he0), Nat.zero_mod]
  · intro f
    have hlt : beVal ct * f ^ e % (p * q) < p * q := Nat.mod_lt _ (by omega)
    rw [C126_text hc d (p * q) hn key.modulus_size key.d_size _ (by unfold blinded; rw [length_natToBE])]
    unfold blinded
    rw [beVal_natToBE, Nat.mod_eq_of_lt (by omega : beVal ct * f ^ e % (p * q) < 256 ^ (((p * q).size - 1) / 8 + 1)),
      ← Nat.pow_mod, Nat.mul_pow, ← Nat.pow_mul, Nat.mul_mod, hx, Nat.mul_comm (beVal ct ^ d % (p * q)), Nat.mod_mul_mod]

/-- C126: in particular every message sent with `encrypt_message` can be found. -/
theorem C126_message {cap : Nat → Nat} (hc : CapOk cap) (p q e d : Nat) (key : KeyPair p q e d)
    (hB : 2 * 256 ^ (((p * q).size - 1) / 8) ≤ p * q) (message ct : List U8)
    (hm : message.length + 66 ≤ ((p * q).size - 1) / 8 + 1)
    (hct : encryptMessage cap ⟨big e, big (p * q)⟩ message Model.Oaep.rsaPadding = .ok ct) :
    Model.Oaep.rsaPadding.decode []
      (natToBE (((p * q).size - 1) / 8 + 1)
        ((attack (p * q) e ct).finds (fun c => startsWithZero (decryptEnding cap ⟨big d, big (p * q)⟩ c))))
      (((p * q).size - 1) / 8 + 1) = .ok (.ok message) := by
  obtain ⟨em, h1, h2, h3⟩ := C53_encrypt_message hc e (p * q) key.modulus_size key.e_size message hm
  rw [h3] at hct
  cases hct
  have hlt := Model.Oaep.beVal_encode_lt (h := sha256Digest) (by omega) (List.replicate 32 42#8) [] message
    (((p * q).size - 1) / 8 + 1) (by simp) hm
  rw [← h1, Nat.add_sub_cancel] at hlt
  have hv : beVal (toBeBytes (big (beVal em ^ e % (p * q)))) ^ d % (p * q) = beVal em := by
    rw [Model.Big.toBeBytes_val, Model.Big.val_big, ← Nat.pow_mod, ← Nat.pow_mul, pow_cancel p q e d key,
      Nat.mod_eq_of_lt h2]
  rw [(C126_attack hc p q e d key hB _ (by rw [hv]; exact hlt)).1, hv]
  have hl : em.length = ((p * q).size - 1) / 8 + 1 := by
    rw [h1]; exact Model.Oaep.length_encode (by omega) _ [] message _ (by simp) hm
  have hr : natToBE (((p * q).size - 1) / 8 + 1) (beVal em) = em := by
    rw [← hl]; exact natToBE_beVal em
  rw [hr]
  have hk := key.modulus_size
  have h5 := C52_rsa_padding [] message (((p * q).size - 1) / 8 + 1) hm (by omega) (by simp)
  rw [C53_rsa_padding [] message _ hm (by omega) (by simp), ← h1] at h5
  exact h5

/-- Not vacuous: the key of `n = 3233`, whose highest byte is 12, and the ciphertext 2790 of 65. The attack run by the kernel
against somebody who only tells whether the decrypted number is below 256 finds 65. -/
theorem textbook_key : KeyPair 61 53 17 2753 where
  p_prime := by norm_num
  q_prime := by norm_num
  distinct := by norm_num
  inverse := by decide
  modulus_size := by decide +kernel
  e_size := by decide +kernel
  d_size := by decide +kernel
example : (attack (61 * 53) 17 [0x0A#8, 0xE6#8]).finds
      (fun c => startsWithZero (decryptEnding exactCap ⟨big 2753, big (61 * 53)⟩ c)) = 65 :=
  (C126_attack exactCap_ok 61 53 17 2753 textbook_key (by decide +kernel) [0x0A#8, 0xE6#8] (by decide +kernel)).1.trans
    (by decide +kernel)
example : (attack 3233 17 [0x0A#8, 0xE6#8]).finds (fun c => decide (beVal c ^ 2753 % 3233 < 256)) = 65 ∧
    (attack 3233 17 [0x0A#8, 0xE6#8]).questions (fun c => decide (beVal c ^ 2753 % 3233 < 256)) = 39 := by
  decide +kernel
/-- The key of 648 bits meets the condition on the highest byte. -/
example : 2 * 256 ^ ((((2 ^ 521 - 1) * (2 ^ 127 - 1)).size - 1) / 8) ≤ (2 ^ 521 - 1) * (2 ^ 127 - 1) := by
  decide +kernel

end Verif.Props
