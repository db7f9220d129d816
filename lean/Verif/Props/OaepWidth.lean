import Verif.Model.OaepWidth
import Verif.Props.Oaep
import Verif.Props.Big
import Verif.Props.Sha

/-! # C162: RSA messages are encrypted and decrypted in the same way on 32-bit and 64-bit targets

The size of `usize` has no effect on OAEP and on RSA messages as long as the lengths leave a few bytes of the address space
free. With `w = 64` this also says that the checks of `usize` arithmetic left out of `Model/Oaep.lean` never fire. -/

namespace Verif.Props
open Verif Verif.Model.Big Verif.Spec.Big
open _root_.Verif.Model.Rsa (RsaEncryption)

theorem width_bind {α β : Type} (x : R α) (f g : α → R β) (h : ∀ a, x = .ok a → f a = g a) : (x >>= f) = (x >>= g) := by
  cases x with
  | error e => rfl
  | ok a => exact h a rfl

theorem width_ok {α β : Type} (a : α) (f : α → R β) : ((.ok a : R α) >>= f) = f a := rfl

theorem width_pow {w : Nat} (hw : w ≤ 64) : 2 ^ (w - 1) ≤ 2 ^ 63 ∧ 2 ^ (w - 1) ≤ 2 ^ w :=
  ⟨Nat.pow_le_pow_right (by omega) (by omega), Nat.pow_le_pow_right (by omega) (by omega)⟩

/-- Masks do not depend on the width of `usize`. -/
theorem C162_mgf1 {w N : Nat} (hw : w ≤ 64) (hash : List U8 → R (Vector U8 N)) (seed : List U8) (size : Nat)
    (h1 : size + N < 2 ^ (w - 1)) (h2 : seed.length + 4 < 2 ^ (w - 1)) :
    Model.OaepWidth.mgf1 w hash seed size = Model.Oaep.mgf1 hash seed size := by
  obtain ⟨hp, hq⟩ := width_pow hw
  have a1 : size + N < 2 ^ w := by omega
  have a2 : seed.length + 4 < 2 ^ w := by omega
  have a3 : size + N < 2 ^ 63 := by omega
  have a4 : size + N < 2 ^ 64 := by omega
  simp only [Model.OaepWidth.mgf1, Model.Oaep.mgf1, Model.OaepWidth.addU, Model.OaepWidth.withCapacity, Model.Oaep.addUsize,
    Model.Oaep.withCapacity, width_ok, if_pos a1, if_pos a2, if_pos a3, if_pos a4, if_pos h1, if_pos h2]

theorem width_xor {a b c : List U8} (h : Model.Oaep.xorSlices a b = .ok c) : c.length = a.length := by
  unfold Model.Oaep.xorSlices at h
  split at h
  · cases h; simp
  · cases h

theorem width_slice {xs c : List U8} {a b : Nat} (h : Model.Oaep.slice xs a b = .ok c) : b ≤ xs.length ∧ c.length = b - a := by
  unfold Model.Oaep.slice at h
  split at h
  · cases h; simp; omega
  · cases h

/-- Padded messages do not depend on the width of `usize`. -/
theorem C162_encode {w N : Nat} (hw : w ≤ 64) (hash : List U8 → R (Vector U8 N)) (label message : List U8) (nLen : Nat)
    (hm : message.length < 2 ^ (w - 1)) (hn : nLen + N + 4 < 2 ^ (w - 1)) (hN : 2 * N + 4 < 2 ^ (w - 1)) :
    Model.OaepWidth.encode w hash label message nLen = Model.Oaep.encode hash label message nLen := by
  obtain ⟨hp, hq⟩ := width_pow hw
  have h2 : 2 ^ (w - 1) + 2 ^ (w - 1) = 2 ^ w := by
    cases w with
    | zero => simp at hN
    | succ w => rw [Nat.add_sub_cancel, Nat.pow_succ]; omega
  have a1 : message.length + 2 * N < 2 ^ w := by omega
  have a2 : message.length + 2 * N + 2 < 2 ^ w := by omega
  have a3 : nLen - N - 1 < 2 ^ (w - 1) := by omega
  have a4 : nLen < 2 ^ (w - 1) := by omega
  unfold Model.OaepWidth.encode Model.Oaep.encode
  refine width_bind _ _ _ fun lh _ => ?_
  simp only [Model.OaepWidth.addU, Model.OaepWidth.withCapacity, width_ok, if_pos a1, if_pos a2, if_pos a3, if_pos a4]
  split
  · rfl
  · rename_i hlen
    rw [C162_mgf1 hw _ _ _ (by omega) (by simp; omega)]
    refine width_bind _ _ _ fun mask _ => width_bind _ _ _ fun mdb hmdb => ?_
    have hl := width_xor hmdb
    simp only [List.length_append, List.length_replicate, Vector.length_toList, List.length_singleton] at hl
    rw [C162_mgf1 hw _ _ _ (by omega) (by omega)]

/-- What is read from a padded message does not depend on the width of `usize`. -/
theorem C162_decode {w N : Nat} (hw : w ≤ 64) (hash : List U8 → R (Vector U8 N)) (label encoded : List U8) (nLen : Nat)
    (he : encoded.length + N + 4 < 2 ^ (w - 1)) (hn : nLen + N + 4 < 2 ^ (w - 1)) :
    Model.OaepWidth.decode w hash label encoded nLen = Model.Oaep.decode hash label encoded nLen := by
  obtain ⟨hp, hq⟩ := width_pow hw
  unfold Model.OaepWidth.decode Model.Oaep.decode
  refine width_bind _ _ _ fun b _ => ?_
  split
  · rfl
  · refine width_bind _ _ _ fun lh _ => ?_
    simp only [Model.OaepWidth.addU, width_ok, if_pos (show N + 1 < 2 ^ w by omega)]
    refine width_bind _ _ _ fun ms hms => width_bind _ _ _ fun mdb hmdb => ?_
    have l1 := width_slice hms
    have l2 := width_slice hmdb
    rw [C162_mgf1 hw _ _ _ (by omega) (by omega)]
    refine width_bind _ _ _ fun sm _ => width_bind _ _ _ fun seed hseed => width_bind _ _ _ fun k hk =>
      width_bind _ _ _ fun k' hk' => ?_
    have l3 := width_xor hseed
    have l4 : k ≤ nLen := by
      unfold subU at hk
      split at hk
      · cases hk; omega
      · cases hk
    have l5 : k' ≤ k := by
      unfold subU at hk'
      split at hk'
      · cases hk'; omega
      · cases hk'
    rw [C162_mgf1 hw _ _ _ (by omega) (by omega)]
    refine width_bind _ _ _ fun dm _ => width_bind _ _ _ fun db hdb => width_bind _ _ _ fun pre _ => ?_
    split
    · rfl
    · refine width_bind _ _ _ fun rest hrest => ?_
      have l6 := width_xor hdb
      have l7 := width_slice hrest
      cases hf : rest.findIdx? (· ≠ 0#8) with
      | none => rfl
      | some i =>
        refine width_bind _ _ _ fun c _ => ?_
        have hi : i < rest.length := (List.findIdx?_eq_some_iff_getElem.1 hf).1
        simp only [width_ok, if_pos (show i + 1 < 2 ^ w by omega)]

theorem width_bits {x : BigUint} {k : Nat} (h : bitsUsed x = .ok k) : k < 2 ^ 32 := by
  unfold bitsUsed at h
  split at h
  · cases h; omega
  · dsimp only at h
    cases h1 : mulU32 ((x.bytes.length - 1) % 2 ^ 32) 8 with
    | error e => rw [h1] at h; cases h
    | ok b =>
      rw [h1, width_ok] at h
      cases h2 : idx x.bytes (x.bytes.length - 1) with
      | error e => rw [h2] at h; cases h
      | ok y =>
        rw [h2, width_ok] at h
        cases h3 : ilog2 y with
        | error e => rw [h3] at h; cases h
        | ok t =>
          rw [h3, width_ok] at h
          unfold addU32 at h
          split at h
          · cases h; assumption
          · cases h

/-- Every message is encrypted, or refused, in the same way on all targets with 32 to 64 bits, with every key. -/
theorem C162_encrypt_message (w : Nat) (hw : 32 ≤ w) (hw' : w ≤ 64) (cap : Nat → Nat) (key : RsaEncryption)
    (message : List U8) (hm : message.length < 2 ^ (w - 1)) :
    Model.OaepWidth.encryptMessage w cap key message (Model.OaepWidth.rsaPadding w) =
      Model.Rsa.encryptMessage cap key message Model.Oaep.rsaPadding := by
  have hp : 2 ^ 31 ≤ 2 ^ (w - 1) := Nat.pow_le_pow_right (by omega) (by omega)
  have hq : 2 ^ 32 ≤ 2 ^ w := Nat.pow_le_pow_right (by omega) (by omega)
  unfold Model.OaepWidth.encryptMessage Model.Rsa.encryptMessage
  refine width_bind _ _ _ fun k hk => width_bind _ _ _ fun k' hk' => ?_
  have h1 := width_bits hk
  have h2 : k' ≤ k := by
    unfold subU at hk'
    split at hk'
    · cases hk'; omega
    · cases hk'
  rw [Nat.mod_eq_of_lt (by omega : k' < 2 ^ w)]
  unfold Model.OaepWidth.addU
  rw [if_pos (by omega), width_ok]
  show (Model.OaepWidth.encode w Model.Sha.sha256 [] message _ >>= _) = (Model.Oaep.encode Model.Sha.sha256 [] message _ >>= _)
  rw [C162_encode hw' _ _ _ _ hm (by omega) (by omega)]

/-- Every ciphertext is decrypted, or refused, in the same way on all targets with up to 64 bits, with every key. -/
theorem C162_decrypt_message (w : Nat) (hw' : w ≤ 64) (cap : Nat → Nat) (key : RsaEncryption)
    (ciphertext : List U8) (hc : ciphertext.length + 36 < 2 ^ (w - 1)) :
    Model.OaepWidth.decryptMessage cap key ciphertext (Model.OaepWidth.rsaPadding w) =
      Model.Rsa.decryptMessage cap key ciphertext Model.Oaep.rsaPadding := by
  unfold Model.OaepWidth.decryptMessage Model.Rsa.decryptMessage
  refine width_bind _ _ _ fun x _ => width_bind _ _ _ fun d _ => width_bind _ _ _ fun start hs => ?_
  have hl : ((List.replicate ciphertext.length 0#8).take start ++ toBeBytes d).length = ciphertext.length := by
    unfold subU at hs
    split at hs
    · cases hs
      simp only [List.length_append, List.length_take, List.length_replicate] at *
      omega
    · cases hs
  show (Model.OaepWidth.decode w Model.Sha.sha256 [] _ _ >>= _) = (Model.Oaep.decode Model.Sha.sha256 [] _ _ >>= _)
  rw [C162_decode hw' _ _ _ _ (by omega) (by omega)]

/-- The bound of 32 bits is needed: with 16-bit `usize` no message at all could be encrypted with a modulus of 65537 to 66056
bits, because the length of the modulus is cut to 16 bits. -/
theorem C162_sixteen_bits (cap : Nat → Nat) (e n : Nat) (h1 : 2 ^ 16 < n.size) (h2 : n.size ≤ 2 ^ 16 + 520)
    (message : List U8) (hm : message.length < 2 ^ 15) :
    Model.OaepWidth.encryptMessage 16 cap ⟨big e, big n⟩ message (Model.OaepWidth.rsaPadding 16) = .error .explicit := by
  obtain ⟨d, hd, _⟩ := C26_sha256 [] (by simp)
  unfold Model.OaepWidth.encryptMessage
  rw [C37_bits_used n (by omega), width_ok]
  unfold subU
  rw [if_pos (by omega), width_ok]
  unfold Model.OaepWidth.addU
  rw [if_pos (by omega), width_ok]
  have : Model.OaepWidth.encode 16 Model.Sha.sha256 [] message ((n.size - 1) % 2 ^ 16 / 8 + 1) = .error .explicit := by
    unfold Model.OaepWidth.encode Model.OaepWidth.addU
    rw [hd, width_ok, if_pos (by omega), width_ok, if_pos (by omega), width_ok, if_pos (by omega)]
    rfl
  show (Model.OaepWidth.encode 16 Model.Sha.sha256 [] message _ >>= _) = _
  rw [this]
  rfl

/-- A message of 100 bytes on a 32-bit target. -/
example (cap : Nat → Nat) (key : RsaEncryption) :
    Model.OaepWidth.encryptMessage 32 cap key (List.replicate 100 7#8) (Model.OaepWidth.rsaPadding 32) =
      Model.Rsa.encryptMessage cap key (List.replicate 100 7#8) Model.Oaep.rsaPadding :=
  C162_encrypt_message 32 (by decide) (by decide) cap key _ (by rw [List.length_replicate]; decide)

/-- A ciphertext of 256 bytes on a 32-bit target. -/
example (cap : Nat → Nat) (key : RsaEncryption) :
    Model.OaepWidth.decryptMessage cap key (List.replicate 256 7#8) (Model.OaepWidth.rsaPadding 32) =
      Model.Rsa.decryptMessage cap key (List.replicate 256 7#8) Model.Oaep.rsaPadding :=
  C162_decrypt_message 32 (by decide) cap key _ (by rw [List.length_replicate]; decide)

/-- SHA-256 digests have 32 bytes; a modulus of 2048 bits. -/
example : 32 ≤ 64 ∧ 256 + 32 + 4 < 2 ^ (32 - 1) ∧ 2 * 32 + 4 < 2 ^ (32 - 1) ∧ 100 < 2 ^ (32 - 1) := by decide

/-- The modulus 2^65536 and the message "hi" for `C162_sixteen_bits`. -/
example : 2 ^ 16 < (2 ^ 65536).size ∧ (2 ^ 65536).size ≤ 2 ^ 16 + 520 ∧ [104#8, 105#8].length < 2 ^ 15 := by
  rw [Nat.size_pow]; decide

end Verif.Props
