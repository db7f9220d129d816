import Verif.Proof.Md
import Verif.Proof.Md2
import Verif.Proof.MdWidth

/-! # C32–C34: the MD hashes

The specifications are `Verif.Spec.Md2` (RFC 1319) and `Verif.Spec.Md` (RFC 1320 and RFC 1321). -/

namespace Verif.Props
open Verif

/-! ## C32 -/

/-- C32: for every message MD2 returns the digest of RFC 1319. -/
theorem C32_md2 (m : List U8) : ∃ v, Model.Md2.hash m = .ok v ∧ v.toList = Spec.Md2.md2 m := Model.Md2.hash_eq m

/-- C32: the table is the shuffle by the digits of π, and it is a permutation. -/
theorem C32_table (b : U8) : Model.Md2.S[b.toNat] = Spec.Md2.S b := Model.Md2.S_eq b

/-- C32: the table is a permutation. -/
theorem C32_table_bijective : Function.Bijective Spec.Md2.S := by
  have h : ∀ v : U8, ∃ b : U8, Model.Md2.S[b.toNat] = v := by decide +kernel
  have : Finite U8 := Finite.of_injective (fun b : U8 => (⟨b.toNat, b.isLt⟩ : Fin 256))
    fun a b e => BitVec.eq_of_toNat_eq (congrArg Fin.val e)
  apply Function.Surjective.bijective_of_finite
  intro v
  obtain ⟨b, hb⟩ := h v
  exact ⟨b, by rw [← hb, Model.Md2.S_eq]⟩

set_option maxRecDepth 100000 in
/-- The vector of `tests/md.rs` for the empty message. -/
example : Model.Md2.hash [] = .ok #v[0x83#8, 0x50#8, 0xe5#8, 0xa3#8, 0xe2#8, 0x4c#8, 0x15#8, 0x3d#8, 0xf2#8, 0x27#8,
    0x5c#8, 0x9f#8, 0x80#8, 0x69#8, 0x27#8, 0x73#8] := by decide +kernel

/-! ## C33 -/

/-- C33: for every message of fewer than 2^61 bytes MD4 returns the digest of RFC 1320. -/
theorem C33_md4 (m : List U8) (hm : m.length < 2 ^ 61) :
    ∃ v, Model.Md4.hash m = .ok v ∧ v.toList = Spec.Md.md4 m := Model.Md4.hash_eq m hm

/-- C33, the boundary: from 2^61 bytes on, however long the message is, the length in bits does not fit 64 bits and the
arithmetic panics. -/
theorem C33_too_long (m : List U8) (hm : 2 ^ 61 ≤ m.length) : Model.Md4.hash m = .error .overflow :=
  (Model.MdWidth.Checked.hash_64 _ m).symm.trans
    (Model.MdWidth.Checked.hash_over (P := Model.Md4.process) (fun _ _ => rfl) (by omega) m hm)

/-- RFC 1320, A.5: "" and "a". -/
example : Model.Md4.hash [] = .ok #v[0x31#8, 0xd6#8, 0xcf#8, 0xe0#8, 0xd1#8, 0x6a#8, 0xe9#8, 0x31#8, 0xb7#8, 0x3c#8,
    0x59#8, 0xd7#8, 0xe0#8, 0xc0#8, 0x89#8, 0xc0#8] := by decide +kernel
example : Model.Md4.hash [0x61#8] = .ok #v[0xbd#8, 0xe5#8, 0x2c#8, 0xb3#8, 0x1d#8, 0xe3#8, 0x3e#8, 0x46#8, 0x24#8,
    0x5e#8, 0x05#8, 0xfb#8, 0xdb#8, 0xd6#8, 0xfb#8, 0x24#8] := by decide +kernel

/-! ## C34 -/

/-- C34: for every message of fewer than 2^61 bytes MD5 returns the digest of RFC 1321. -/
theorem C34_md5 (m : List U8) (hm : m.length < 2 ^ 61) :
    ∃ v, Model.Md5.hash m = .ok v ∧ v.toList = Spec.Md.md5 m := Model.Md5.hash_eq m hm

/-- C34: the constants are ⌊2^32 · |sin t|⌋. -/
theorem C34_constants (t : Fin 64) :
    (Model.Md5.T[t.val]).toNat = ⌊(4294967296 : ℝ) * |Real.sin ((t.val + 1 : ℕ) : ℝ)|⌋₊ :=
  (Model.Md5.T_floor t.val t.isLt).symm

/-- C34, the boundary: from 2^61 bytes on, however long the message is, the length in bits does not fit 64 bits and the
arithmetic panics. -/
theorem C34_too_long (m : List U8) (hm : 2 ^ 61 ≤ m.length) : Model.Md5.hash m = .error .overflow :=
  (Model.MdWidth.Checked.hash_64 _ m).symm.trans
    (Model.MdWidth.Checked.hash_over (P := Model.Md5.processT) Model.Md5.process_total (by omega) m hm)

/-- RFC 1321, A.5: "" and "a". -/
example : Model.Md5.hash [] = .ok #v[0xd4#8, 0x1d#8, 0x8c#8, 0xd9#8, 0x8f#8, 0x00#8, 0xb2#8, 0x04#8, 0xe9#8, 0x80#8,
    0x09#8, 0x98#8, 0xec#8, 0xf8#8, 0x42#8, 0x7e#8] := by decide +kernel
example : Model.Md5.hash [0x61#8] = .ok #v[0x0c#8, 0xc1#8, 0x75#8, 0xb9#8, 0xc0#8, 0xf1#8, 0xb6#8, 0xa8#8, 0x31#8,
    0xc3#8, 0x99#8, 0xe2#8, 0x69#8, 0x77#8, 0x26#8, 0x61#8] := by decide +kernel

/-- C33 and C34 applied to a message of four million bytes. -/
example : ∃ v, Model.Md5.hash (List.replicate 4000000 7#8) = .ok v ∧ v.toList = Spec.Md.md5 (List.replicate 4000000 7#8) :=
  C34_md5 _ (by rw [List.length_replicate]; norm_num)

end Verif.Props
