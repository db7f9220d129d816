import Verif.Proof.Debug
import Verif.Props.RsaExact

/-! # C143: what is printed of numbers, keys and hash values -/

namespace Verif.Props
open Verif Verif.Model.Debug
open _root_.Verif.Model.Big (BigUint)
open _root_.Verif.Model.Rsa (PrivateKey PublicKey createKeys)
open _root_.Verif.Spec.Big (val big)
open _root_.Verif.Spec.Text (bytesText)
open _root_.Verif.Spec.Debug (listsIn numbersIn)

/-- C143: what `{:?}` prints of a number, a key and a hash value. -/
theorem C143_texts (x n d e : BigUint) {N : Nat} (h : Vector U8 N) :
    debugBig x = "BigUint { bytes: ".toList ++ bytesText x.bytes ++ " }".toList ∧
    debugPrivateKey ⟨n, d⟩ = "PrivateKey { n: BigUint { bytes: ".toList ++ bytesText n.bytes ++
      " }, d: BigUint { bytes: ".toList ++ bytesText d.bytes ++ " } }".toList ∧
    debugPublicKey ⟨n, e⟩ = "PublicKey { n: BigUint { bytes: ".toList ++ bytesText n.bytes ++
      " }, e: BigUint { bytes: ".toList ++ bytesText e.bytes ++ " } }".toList ∧
    debugHash h = "HashValue(".toList ++ bytesText h.toList ++ ")".toList := by
  simp [debugBig, debugPrivateKey, debugPublicKey, debugHash, struct, field, Model.Text.entries, Model.Text.debugBytes_eq]

/-- C143: the numbers can be read from the text. Every number, given as its digits in base 256, every key (the private
exponent among them) and every hash value. -/
theorem C143_read (x : BigUint) (sk : PrivateKey) (pk : PublicKey) {N : Nat} (h : Vector U8 N) :
    listsIn (debugBig x) = [x.bytes.map (·.toNat)] ∧ numbersIn (debugBig x) = [val x] ∧
    numbersIn (debugPrivateKey sk) = [val sk.n, val sk.d] ∧ numbersIn (debugPublicKey pk) = [val pk.n, val pk.e] ∧
    listsIn (debugHash h) = [h.toList.map (·.toNat)] := by
  have hv : ∀ y : BigUint, Nat.ofDigits 256 (y.bytes.map (·.toNat)) = val y := fun y => by
    unfold val
    induction y.bytes with
    | nil => rfl
    | cons b l ih => simp [Nat.ofDigits_cons, ih, leVal]
  have h0 : ∀ y : BigUint, listsIn (debugBig y) = [y.bytes.map (·.toNat)] := fun y => by
    have := scan_big [] y []
    simpa [listsIn, Spec.Debug.scan] using this
  refine ⟨h0 x, by rw [numbersIn, h0]; simp [hv], ?_, ?_, ?_⟩
  · rw [numbersIn, debugPrivateKey, lists_two _ _ _ _ _ (by decide)]; simp [hv]
  · rw [numbersIn, debugPublicKey, lists_two _ _ _ _ _ (by decide)]; simp [hv]
  · unfold listsIn debugHash
    rw [List.append_assoc, scan_words _ _ (by decide), scan_bytes]
    rfl

/-- C143: so whoever sees the printed private key of `create_keys`, and nothing else, decrypts: the second number in the text is
an exponent that undoes the encryption modulo the first, for every message. -/
theorem C143_leak (p q e m : Nat) (hp : p.Prime) (hq : q.Prime) (hpq : p ≠ q) (sk : PrivateKey) (pk : PublicKey)
    (hk : createKeys (big p) (big q) (big e) = .ok (sk, pk)) (hm : m < p * q) :
    ∃ n d, numbersIn (debugPrivateKey sk) = [n, d] ∧ n = p * q ∧ (m ^ e % n) ^ d % n = m := by
  obtain ⟨h1, h2, h3, h4⟩ := C92_keys_sound _ _ _ _ _ hk
  simp only [Model.Big.val_big] at h1 h3 h4
  refine ⟨val sk.n, val sk.d, (C143_read sk.n sk pk (#v[] : Vector U8 0)).2.2.1, h1, ?_⟩
  rw [h1, ← Nat.pow_mod, ← Nat.pow_mul, Model.Rsa.rsa_correct p q e (val sk.d) m hp hq hpq (by rw [← h3]; exact h4) hm]

/-- C143: derived equality. Keys with normalised numbers are equal exactly if their numbers are, and this is the case exactly
if the texts are the same (which also holds for numbers that are not normalised). -/
theorem C143_equal (n d n' d' : Nat) (k k' : PrivateKey) :
    ((⟨big n, big d⟩ : PrivateKey) = ⟨big n', big d'⟩ ↔ n = n' ∧ d = d') ∧
    (k = k' ↔ debugPrivateKey k = debugPrivateKey k') := by
  constructor
  · simp only [PrivateKey.mk.injEq]
    have hb : ∀ a b : Nat, big a = big b ↔ a = b := fun a b =>
      ⟨fun h => by simpa [Model.Big.val_big] using congrArg val h, fun h => by rw [h]⟩
    rw [hb, hb]
  · refine ⟨fun h => by rw [h], fun h => ?_⟩
    have h1 := congrArg listsIn h
    have ht : ∀ l l' : List U8, l.map (·.toNat) = l'.map (·.toNat) → l = l' := fun l l' =>
      fun hl => (List.map_injective_iff.2 fun a b hab => BitVec.eq_of_toNat_eq hab) hl
    rw [debugPrivateKey, debugPrivateKey, lists_two _ _ _ _ _ (by decide), lists_two _ _ _ _ _ (by decide)] at h1
    simp only [List.cons.injEq, and_true] at h1
    obtain ⟨⟨a⟩, ⟨b⟩⟩ := k
    obtain ⟨⟨a'⟩, ⟨b'⟩⟩ := k'
    simp only at h1
    rw [ht _ _ h1.1, ht _ _ h1.2]

example : ∃ sk pk, createKeys ⟨[61#8]⟩ ⟨[53#8]⟩ ⟨[17#8]⟩ = .ok (sk, pk) ∧
    debugPrivateKey sk = "PrivateKey { n: BigUint { bytes: [161, 12] }, d: BigUint { bytes: [157, 1] } }".toList ∧
    numbersIn (debugPrivateKey sk) = [3233, 413] ∧ (65 ^ 17 % 3233) ^ 413 % 3233 = 65 :=
  ⟨⟨⟨[0xa1#8, 0x0c#8]⟩, ⟨[0x9d#8, 0x01#8]⟩⟩, ⟨⟨[0xa1#8, 0x0c#8]⟩, ⟨[17#8]⟩⟩, by decide +kernel, by decide +kernel,
    by decide +kernel, by decide +kernel⟩

example : debugBig ⟨[]⟩ = "BigUint { bytes: [] }".toList ∧ debugHash #v[1#8, 255#8] = "HashValue([1, 255])".toList :=
  ⟨by decide +kernel, by decide +kernel⟩

/-- Zeros that are not normalised are different values and print differently, although they stand for the same number. -/
example : (⟨⟨[0#8]⟩, ⟨[]⟩⟩ : PrivateKey) ≠ ⟨⟨[]⟩, ⟨[]⟩⟩ ∧ debugPrivateKey ⟨⟨[0#8]⟩, ⟨[]⟩⟩ ≠ debugPrivateKey ⟨⟨[]⟩, ⟨[]⟩⟩ ∧
    numbersIn (debugPrivateKey ⟨⟨[0#8]⟩, ⟨[]⟩⟩) = [0, 0] := ⟨by decide, by decide +kernel, by decide +kernel⟩

end Verif.Props
