import Verif.Props.Md
import Verif.Proof.MdWidth

/-! # C118: MD4 and MD5 on targets where `usize` has other than 64 bits

The hasher counts bytes in a `usize` and multiplies the count by 8 in `usize`. `w` is the number of bits of `usize`.
With overflow checks the digest is right below 2^(w-3) bytes and the arithmetic panics from there on; without them a
digest is always returned, and it is the digest with the length in bits taken modulo 2^w. On 32-bit targets that
happens at 512 MiB, which is within reach: `hash` takes an iterator, so that the message need not fit in memory. -/

namespace Verif.Props
open Verif
open _root_.Verif.Model.MdWidth

/-! ## What is computed -/

/-- Padding as in RFC 1320 and RFC 1321 except that the length in bits is taken modulo 2^w. -/
def padModulo (w : Nat) (m : List U8) : List U8 :=
  m ++ 0x80#8 :: List.replicate ((119 - m.length % 64) % 64) 0#8 ++ natToLE 8 (8 * m.length % 2 ^ w)

/-- The output of RFC 1320 and RFC 1321 for a padded message. -/
def digestPadded (new : Nat → (Nat → U32) → Spec.Md.Four → U32) (n : Nat) (p : List U8) : List U8 :=
  let H := Spec.Md.buffer new n p (p.length / 64)
  natToLE 4 H.a.toNat ++ natToLE 4 H.b.toNat ++ natToLE 4 H.c.toNat ++ natToLE 4 H.d.toNat

/-- The RFCs are the case of their own padding. -/
theorem digest_eq_padded (new : Nat → (Nat → U32) → Spec.Md.Four → U32) (n : Nat) (m : List U8) :
    Spec.Md.digest new n m = digestPadded new n (Spec.Md.pad m) := rfl

/-! ## The 64-bit models are the case w = 64 -/

/-- C118: with 64 bits these are the functions of the other theorems. -/
theorem C118_width_64 (m : List U8) : Checked.md4 64 m = Model.Md4.hash m ∧ Checked.md5 64 m = Model.Md5.hash m ∧
    Wrapping.md4 64 m = Model.Release.md4 m ∧ Wrapping.md5 64 m = Model.Release.md5 m :=
  ⟨Checked.hash_64 _ m, Checked.hash_64 _ m, Wrapping.hash_64 _ m, Wrapping.hash_64 _ m⟩

/-! ## Overflow checks on -/

/-- C118, MD4 with overflow checks: for every width and every message below 2^(w-3) bytes the digest of RFC 1320. -/
theorem C118_checked_md4 (w : Nat) (hw : 16 ≤ w) (hw' : w ≤ 64) (m : List U8) (hm : m.length < 2 ^ (w - 3)) :
    ∃ v, Checked.md4 w m = .ok v ∧ v.toList = Spec.Md.md4 m := by
  have h61 : (2 : Nat) ^ (w - 3) ≤ 2 ^ 61 := Nat.pow_le_pow_right (by omega) (by omega)
  obtain ⟨v, h, e⟩ := C33_md4 m (by omega)
  exact ⟨v, (Checked.hash_eq hw hw' m hm).trans h, e⟩

/-- C118, MD5 with overflow checks. -/
theorem C118_checked_md5 (w : Nat) (hw : 16 ≤ w) (hw' : w ≤ 64) (m : List U8) (hm : m.length < 2 ^ (w - 3)) :
    ∃ v, Checked.md5 w m = .ok v ∧ v.toList = Spec.Md.md5 m := by
  have h61 : (2 : Nat) ^ (w - 3) ≤ 2 ^ 61 := Nat.pow_le_pow_right (by omega) (by omega)
  obtain ⟨v, h, e⟩ := C34_md5 m (by omega)
  exact ⟨v, (Checked.hash_eq hw hw' m hm).trans h, e⟩

/-- C118, the boundary: from 2^(w-3) bytes on, however long the message is, the arithmetic panics. For `w = 64` this is
`C33_too_long` and `C34_too_long`. -/
theorem C118_checked_too_long (w : Nat) (hw : 16 ≤ w) (m : List U8) (hm : 2 ^ (w - 3) ≤ m.length) :
    Checked.md4 w m = .error .overflow ∧ Checked.md5 w m = .error .overflow :=
  ⟨Checked.hash_over (P := Model.Md4.process) (fun _ _ => rfl) (by omega) m hm,
    Checked.hash_over (P := Model.Md5.processT) Model.Md5.process_total (by omega) m hm⟩

/-! ## Overflow checks off -/

/-- C118, MD4 without overflow checks: for every message the digest with the length in bits modulo 2^w. -/
theorem C118_wrapping_md4 (w : Nat) (hw : 16 ≤ w) (m : List U8) :
    ∃ v, Wrapping.md4 w m = .ok v ∧ v.toList = digestPadded Spec.Md.md4New 48 (padModulo w m) :=
  Wrapping.hash_spec (by omega) (P := Model.Md4.process) (fun _ _ => rfl) Model.Md4.process_eq m _ rfl

/-- C118, MD5 without overflow checks. -/
theorem C118_wrapping_md5 (w : Nat) (hw : 16 ≤ w) (m : List U8) :
    ∃ v, Wrapping.md5 w m = .ok v ∧ v.toList = digestPadded Spec.Md.md5New 64 (padModulo w m) :=
  Wrapping.hash_spec (by omega) (P := Model.Md5.processT) Model.Md5.process_total Model.Md5.processT_eq m _ rfl

/-- C118: below 2^(w-3) bytes that padding is the RFCs'. -/
theorem C118_padding_right (w : Nat) (hw : 3 ≤ w) (m : List U8) (hm : m.length < 2 ^ (w - 3)) :
    padModulo w m = Spec.Md.pad m := by
  have h8 : (2 : Nat) ^ w = 8 * 2 ^ (w - 3) := by
    rw [show (8 : Nat) = 2 ^ 3 by rfl, ← pow_add]; congr 1; omega
  unfold padModulo Spec.Md.pad
  rw [Nat.mod_eq_of_lt (show 8 * m.length < 2 ^ w by omega)]

/-- C118: so that the digest is the RFCs'. -/
theorem C118_wrapping_right (w : Nat) (hw : 16 ≤ w) (m : List U8) (hm : m.length < 2 ^ (w - 3)) :
    (∃ v, Wrapping.md4 w m = .ok v ∧ v.toList = Spec.Md.md4 m) ∧
    ∃ v, Wrapping.md5 w m = .ok v ∧ v.toList = Spec.Md.md5 m := by
  have h4 := C118_wrapping_md4 w hw m
  have h5 := C118_wrapping_md5 w hw m
  rw [C118_padding_right w (by omega) m hm] at h4 h5
  exact ⟨h4, h5⟩

/-- C118: when `usize` is narrower than 64 bits and the message has at least 2^(w-3) bytes (and fewer than 2^61), what
is hashed is not the padded message of the RFCs: it has the same length and differs in the last eight bytes, which say
another number of bits. -/
theorem C118_padding_wrong (w : Nat) (hw : 16 ≤ w) (hw' : w < 64) (m : List U8) (hm : 2 ^ (w - 3) ≤ m.length)
    (hm' : m.length < 2 ^ 61) :
    padModulo w m ≠ Spec.Md.pad m ∧ (padModulo w m).length = (Spec.Md.pad m).length ∧
    leVal ((padModulo w m).drop ((padModulo w m).length - 8)) < 8 * m.length ∧
    leVal ((Spec.Md.pad m).drop ((Spec.Md.pad m).length - 8)) = 8 * m.length := by
  have h8 : (2 : Nat) ^ w = 8 * 2 ^ (w - 3) := by
    rw [show (8 : Nat) = 2 ^ 3 by rfl, ← pow_add]; congr 1; omega
  have hlt : 8 * m.length % 2 ^ w < 8 * m.length := by
    have := Nat.mod_lt (8 * m.length) (Nat.two_pow_pos w)
    omega
  have e1 : leVal ((padModulo w m).drop ((padModulo w m).length - 8)) = 8 * m.length % 2 ^ w := by
    unfold padModulo
    rw [List.drop_left' (by simp [length_natToLE]; omega), leVal_natToLE, Nat.mod_eq_of_lt]
    show _ < 256 ^ 8
    rw [show (256 : Nat) ^ 8 = 2 ^ 64 by norm_num]
    omega
  have e2 : leVal ((Spec.Md.pad m).drop ((Spec.Md.pad m).length - 8)) = 8 * m.length := by
    unfold Spec.Md.pad
    rw [List.drop_left' (by simp [length_natToLE]; omega), leVal_natToLE, Nat.mod_eq_of_lt]
    show _ < 256 ^ 8
    rw [show (256 : Nat) ^ 8 = 2 ^ 64 by norm_num]
    omega
  refine ⟨fun h => ?_, ?_, by rw [e1]; exact hlt, e2⟩
  · rw [h, e2] at e1; omega
  · unfold padModulo Spec.Md.pad
    simp [length_natToLE]

/-- C118: the two builds never disagree about a digest; the checked one panics where the other returns a wrong one. -/
theorem C118_checked_wrapping (w : Nat) (hw : 16 ≤ w) (hw' : w ≤ 64) (m : List U8) (v : Vector U8 16) :
    (Checked.md4 w m = .ok v → Wrapping.md4 w m = .ok v) ∧ (Checked.md5 w m = .ok v → Wrapping.md5 w m = .ok v) := by
  by_cases hm : m.length < 2 ^ (w - 3)
  · obtain ⟨⟨a, ha, ea⟩, b, hb, eb⟩ := C118_wrapping_right w hw m hm
    obtain ⟨a', ha', ea'⟩ := C118_checked_md4 w hw hw' m hm
    obtain ⟨b', hb', eb'⟩ := C118_checked_md5 w hw hw' m hm
    constructor
    · intro h
      rw [ha, ← Except.ok.inj (ha'.symm.trans h), Vector.toList_inj.1 (ea.trans ea'.symm)]
    · intro h
      rw [hb, ← Except.ok.inj (hb'.symm.trans h), Vector.toList_inj.1 (eb.trans eb'.symm)]
  · obtain ⟨h4, h5⟩ := C118_checked_too_long w hw m (by omega)
    rw [h4, h5]
    exact ⟨fun h => by simp at h, fun h => by simp at h⟩

/-- On a 32-bit target 512 MiB are too long, and one byte less is not. -/
example : Checked.md5 32 (List.replicate 536870912 0#8) = .error .overflow ∧
    ∃ v, Checked.md5 32 (List.replicate 536870911 0#8) = .ok v ∧
      v.toList = Spec.Md.md5 (List.replicate 536870911 0#8) :=
  ⟨(C118_checked_too_long 32 (by omega) _ (by rw [List.length_replicate]; norm_num)).2,
    C118_checked_md5 32 (by omega) (by omega) _ (by rw [List.length_replicate]; norm_num)⟩

/-- Without the checks the length hashed with 512 MiB is 0 bits. -/
example : natToLE 8 (8 * 536870912 % 2 ^ 32) = List.replicate 8 0#8 ∧
    padModulo 32 (List.replicate 536870912 0#8) ≠ Spec.Md.pad (List.replicate 536870912 0#8) :=
  ⟨by decide, (C118_padding_wrong 32 (by omega) (by omega) _ (by rw [List.length_replicate]; norm_num)
    (by rw [List.length_replicate]; norm_num)).1⟩

/-- Ordinary messages have their ordinary digests: MD5 of "" on a 32-bit target. -/
example : Checked.md5 32 [] = .ok #v[0xd4#8, 0x1d#8, 0x8c#8, 0xd9#8, 0x8f#8, 0x00#8, 0xb2#8, 0x04#8, 0xe9#8, 0x80#8,
    0x09#8, 0x98#8, 0xec#8, 0xf8#8, 0x42#8, 0x7e#8] := by decide +kernel

/-- C118 applied: a message that is short enough for a 32-bit counter, and one that is not. -/
example : (∃ v, Checked.md4 32 (List.replicate 536870911 0#8) = .ok v ∧
      v.toList = Spec.Md.md4 (List.replicate 536870911 0#8)) ∧
    (∃ v, Wrapping.md5 32 (List.replicate 536870911 0#8) = .ok v ∧
      v.toList = Spec.Md.md5 (List.replicate 536870911 0#8)) ∧
    padModulo 32 (List.replicate 536870911 0#8) = Spec.Md.pad (List.replicate 536870911 0#8) :=
  ⟨C118_checked_md4 32 (by omega) (by omega) _ (by rw [List.length_replicate]; norm_num),
    (C118_wrapping_right 32 (by omega) _ (by rw [List.length_replicate]; norm_num)).2,
    C118_padding_right 32 (by omega) _ (by rw [List.length_replicate]; norm_num)⟩
example : (∃ v, Wrapping.md4 32 (List.replicate 536870912 0#8) = .ok v ∧
      v.toList = digestPadded Spec.Md.md4New 48 (padModulo 32 (List.replicate 536870912 0#8))) ∧
    ∃ v, Wrapping.md5 32 (List.replicate 536870912 0#8) = .ok v ∧
      v.toList = digestPadded Spec.Md.md5New 64 (padModulo 32 (List.replicate 536870912 0#8)) :=
  ⟨C118_wrapping_md4 32 (by omega) _, C118_wrapping_md5 32 (by omega) _⟩

end Verif.Props
