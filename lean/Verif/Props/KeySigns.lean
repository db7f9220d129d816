import Verif.Props.Keys
import Verif.Proof.RsaMessage

/-! # C128: the numbers in key files and their signs -/

namespace Verif.Props
open Verif Verif.Model.Rsa Verif.Model.Pem
open _root_.Verif.Spec.Asn1 (Accepts AcceptsAll der)
open _root_.Verif.Spec.Keys (algorithm IsPublic IsPrivate subjectPublicKeyInfo derInteger)
open _root_.Verif.Spec.Big (big)

/-- The number that the contents of an ASN.1 integer stand for (X.690, 8.3.3): two's complement, the first byte counts with
its sign. (No contents at all are not allowed by the standard; they are taken for 0.) -/
def intValue : List U8 → Int
  | [] => 0
  | b :: l => b.toInt * 256 ^ l.length + beVal l

example : intValue [0x00#8, 0x8F#8] = 143 ∧ intValue [0x8F#8] = -113 ∧ intValue [0xFF#8, 0x7F#8] = -129 := by decide

theorem beVal_eq_intValue (c : List U8) : (beVal c : Int) = intValue c % 256 ^ c.length := by
  cases c with
  | nil => rfl
  | cons b l =>
    have h1 := Model.Oaep.beVal_lt (b :: l)
    have h2 : beVal (b :: l) = b.toNat * 256 ^ l.length + beVal l := Model.Oaep.beVal_cons b l
    have h3 : b.toInt = b.toNat ∨ b.toInt = (b.toNat : Int) - 256 := by
      rw [BitVec.toInt_eq_toNat_cond]
      split <;> [left; right] <;> simp
    have h4 : ((beVal (b :: l) : Nat) : Int) = (beVal (b :: l) : Int) % 256 ^ (b :: l).length := by
      rw [Int.emod_eq_of_lt (by omega)]
      exact_mod_cast h1
    rw [h4]
    unfold intValue
    rw [h2]
    push_cast
    rcases h3 with h3 | h3 <;> rw [h3]
    rw [List.length_cons, pow_succ,
      show ((b.toNat : Int) - 256) * 256 ^ l.length + (beVal l : Int) =
        b.toNat * 256 ^ l.length + beVal l + 256 ^ l.length * 256 * (-1) by ring, Int.add_mul_emod_self_left]

/-- C128: converting a public key file gives the two numbers in it modulo 256 to the number of their bytes, for all the files
that are accepted. -/
theorem C128_public (data inner modulus exponent : List U8) (h : Accepts data (.sequence [algorithm, .bitString inner 0#8]))
    (h' : Accepts inner (.sequence [.integer modulus, .integer exponent])) :
    publicKeyTryFrom ⟨"PUBLIC KEY".toList, data⟩ = .ok (.ok
      ⟨big (intValue modulus % 256 ^ modulus.length).toNat, big (intValue exponent % 256 ^ exponent.length).toNat⟩) := by
  rw [← beVal_eq_intValue, ← beVal_eq_intValue]
  exact (C67_public_iff _ _).2 ⟨rfl, _, _, ⟨inner, modulus, exponent, h, h', rfl, rfl⟩, rfl⟩

/-- C128: likewise for a private key file. -/
theorem C128_private (data inner : List U8) (version : U8) (modulus e d p q dp dq qinv : List U8)
    (h : Accepts data (.sequence [.integer [0#8], algorithm, .octetString inner]))
    (h' : Accepts inner (.sequence [.integer [version], .integer modulus, .integer e, .integer d, .integer p, .integer q,
      .integer dp, .integer dq, .integer qinv])) :
    privateKeyTryFrom ⟨"PRIVATE KEY".toList, data⟩ = .ok (.ok
      ⟨big (intValue modulus % 256 ^ modulus.length).toNat, big (intValue d % 256 ^ d.length).toNat⟩) := by
  rw [← beVal_eq_intValue, ← beVal_eq_intValue]
  exact (C67_private_iff _ _).2 ⟨rfl, _, _, ⟨inner, version, modulus, e, d, p, q, dp, dq, qinv, h, h', rfl, rfl⟩, rfl⟩

theorem mod_of_nonneg (c : List U8) (h : 0 ≤ intValue c) : intValue c % 256 ^ c.length = intValue c := by
  refine Int.emod_eq_of_lt h ?_
  cases c with
  | nil => decide
  | cons b l =>
    unfold intValue
    have h1 := Model.Oaep.beVal_lt l
    have h2 : b.toInt < 128 := by
      have := BitVec.toInt_lt (x := b)
      simpa using this
    have h3 : ((beVal l : Nat) : Int) < 256 ^ l.length := by exact_mod_cast h1
    rw [List.length_cons, pow_succ]
    nlinarith [pow_pos (show (0 : Int) < 256 by norm_num) l.length]

theorem mod_of_neg (c : List U8) (h : intValue c < 0) : intValue c % 256 ^ c.length = intValue c + 256 ^ c.length := by
  rw [← Int.add_emod_right]
  cases c with
  | nil => exact absurd h (by decide)
  | cons b l =>
    unfold intValue at h ⊢
    have h2 : -128 ≤ b.toInt := by
      have := BitVec.le_toInt (x := b)
      simpa using this
    have h3 : (0 : Int) ≤ (beVal l : Int) := by omega
    rw [List.length_cons, pow_succ]
    have hp := pow_pos (show (0 : Int) < 256 by norm_num) l.length
    exact Int.emod_eq_of_lt (by nlinarith) (by linarith)

/-- C128, as far as it is true: if no number in the file is negative, the key has the numbers that the file states. Missing:
files with negative numbers should be rejected, see `C128_negative`. -/
theorem C128_public_partial (data inner modulus exponent : List U8)
    (h : Accepts data (.sequence [algorithm, .bitString inner 0#8]))
    (h' : Accepts inner (.sequence [.integer modulus, .integer exponent])) (hm : 0 ≤ intValue modulus)
    (he : 0 ≤ intValue exponent) :
    publicKeyTryFrom ⟨"PUBLIC KEY".toList, data⟩ =
      .ok (.ok ⟨big (intValue modulus).toNat, big (intValue exponent).toNat⟩) := by
  have := C128_public data inner modulus exponent h h'
  rwa [mod_of_nonneg _ hm, mod_of_nonneg _ he] at this

theorem C128_private_partial (data inner : List U8) (version : U8) (modulus e d p q dp dq qinv : List U8)
    (h : Accepts data (.sequence [.integer [0#8], algorithm, .octetString inner]))
    (h' : Accepts inner (.sequence [.integer [version], .integer modulus, .integer e, .integer d, .integer p, .integer q,
      .integer dp, .integer dq, .integer qinv])) (hm : 0 ≤ intValue modulus) (hd : 0 ≤ intValue d) :
    privateKeyTryFrom ⟨"PRIVATE KEY".toList, data⟩ = .ok (.ok ⟨big (intValue modulus).toNat, big (intValue d).toNat⟩) := by
  have := C128_private data inner version modulus e d p q dp dq qinv h h'
  rwa [mod_of_nonneg _ hm, mod_of_nonneg _ hd] at this

/-- C128: a negative number is accepted, and read as the positive number 256^k above it, `k` being its number of bytes. -/
theorem C128_negative (data inner modulus exponent : List U8)
    (h : Accepts data (.sequence [algorithm, .bitString inner 0#8]))
    (h' : Accepts inner (.sequence [.integer modulus, .integer exponent])) (hm : intValue modulus < 0) :
    ∃ k : PublicKey, publicKeyTryFrom ⟨"PUBLIC KEY".toList, data⟩ = .ok (.ok k) ∧
      (Spec.Big.val k.n : Int) = intValue modulus + 256 ^ modulus.length := by
  refine ⟨_, C128_public data inner modulus exponent h h', ?_⟩
  show ((Spec.Big.val (big _) : Nat) : Int) = _
  rw [Model.Big.val_big, Int.toNat_of_nonneg (Int.emod_nonneg _ (by positivity)), mod_of_neg _ hm]

/-- Such a file: the modulus is written as the byte 0x8F, which stands for -113 and is read as 143; the exponent is 7. -/
def negativeFile : List U8 :=
  [48#8, 26#8, 48#8, 13#8, 6#8, 9#8, 42#8, 134#8, 72#8, 134#8, 247#8, 13#8, 1#8, 1#8, 1#8, 5#8, 0#8, 3#8, 9#8, 0#8, 48#8, 6#8,
    2#8, 1#8, 0x8F#8, 2#8, 1#8, 7#8]

/-- C128 is false as it stands: this file states the modulus -113, and is not rejected. -/
theorem C128_false : ∃ data inner modulus exponent : List U8, Accepts data (.sequence [algorithm, .bitString inner 0#8]) ∧
    Accepts inner (.sequence [.integer modulus, .integer exponent]) ∧ intValue modulus = -113 ∧ intValue exponent = 7 ∧
    publicKeyTryFrom ⟨"PUBLIC KEY".toList, data⟩ = .ok (.ok ⟨big 143, big 7⟩) := by
  have h1 : Accepts negativeFile (.sequence [algorithm, .bitString [48#8, 6#8, 2#8, 1#8, 0x8F#8, 2#8, 1#8, 7#8] 0#8]) :=
    (Model.Asn1.tryFrom_ok_iff _ _).1 (by rfl)
  have h2 : Accepts [48#8, 6#8, 2#8, 1#8, 0x8F#8, 2#8, 1#8, 7#8] (.sequence [.integer [0x8F#8], .integer [7#8]]) :=
    (Model.Asn1.tryFrom_ok_iff _ _).1 (by rfl)
  exact ⟨negativeFile, _, _, _, h1, h2, by decide, by decide, C128_public _ _ _ _ h1 h2⟩

/-- C128 applied to that file. -/
example : ∃ k : PublicKey, publicKeyTryFrom ⟨"PUBLIC KEY".toList, negativeFile⟩ = .ok (.ok k) ∧
    (Spec.Big.val k.n : Int) = -113 + 256 ^ 1 :=
  C128_negative _ [48#8, 6#8, 2#8, 1#8, 0x8F#8, 2#8, 1#8, 7#8] [0x8F#8] [7#8]
    ((Model.Asn1.tryFrom_ok_iff _ _).1 (by rfl)) ((Model.Asn1.tryFrom_ok_iff _ _).1 (by rfl)) (by decide)

/-- A file with non-negative numbers: the modulus 143 with the byte 0 in front. -/
example : publicKeyTryFrom ⟨"PUBLIC KEY".toList, der (subjectPublicKeyInfo 143 7)⟩ = .ok (.ok ⟨big 143, big 7⟩) :=
  C128_public_partial _ [48#8, 7#8, 2#8, 2#8, 0#8, 0x8F#8, 2#8, 1#8, 7#8] [0#8, 0x8F#8] [7#8]
    ((Model.Asn1.tryFrom_ok_iff _ _).1 (by rfl)) ((Model.Asn1.tryFrom_ok_iff _ _).1 (by rfl)) (by decide) (by decide)
/-- A private key file with small numbers, and one whose modulus is -113. -/
example : privateKeyTryFrom ⟨"PRIVATE KEY".toList,
    [48#8, 49#8, 2#8, 1#8, 0#8, 48#8, 13#8, 6#8, 9#8, 42#8, 134#8, 72#8, 134#8, 247#8, 13#8, 1#8, 1#8, 1#8, 5#8, 0#8, 4#8, 29#8,
      48#8, 27#8, 2#8, 1#8, 0#8, 2#8, 1#8, 77#8, 2#8, 1#8, 7#8, 2#8, 1#8, 43#8, 2#8, 1#8, 7#8, 2#8, 1#8, 11#8, 2#8, 1#8, 1#8,
      2#8, 1#8, 3#8, 2#8, 1#8, 2#8]⟩ = .ok (.ok ⟨big 77, big 43⟩) :=
  C128_private_partial _ _ 0#8 [77#8] [7#8] [43#8] [7#8] [11#8] [1#8] [3#8] [2#8]
    ((Model.Asn1.tryFrom_ok_iff _ _).1 (by rfl)) ((Model.Asn1.tryFrom_ok_iff
      [48#8, 27#8, 2#8, 1#8, 0#8, 2#8, 1#8, 77#8, 2#8, 1#8, 7#8, 2#8, 1#8, 43#8, 2#8, 1#8, 7#8, 2#8, 1#8, 11#8, 2#8, 1#8, 1#8,
        2#8, 1#8, 3#8, 2#8, 1#8, 2#8] _).1 (by rfl)) (by decide) (by decide)
example : privateKeyTryFrom ⟨"PRIVATE KEY".toList,
    [48#8, 49#8, 2#8, 1#8, 0#8, 48#8, 13#8, 6#8, 9#8, 42#8, 134#8, 72#8, 134#8, 247#8, 13#8, 1#8, 1#8, 1#8, 5#8, 0#8, 4#8, 29#8,
      48#8, 27#8, 2#8, 1#8, 0#8, 2#8, 1#8, 143#8, 2#8, 1#8, 7#8, 2#8, 1#8, 43#8, 2#8, 1#8, 7#8, 2#8, 1#8, 11#8, 2#8, 1#8, 1#8,
      2#8, 1#8, 3#8, 2#8, 1#8, 2#8]⟩ = .ok (.ok ⟨big 143, big 43⟩) :=
  C128_private _ _ 0#8 [143#8] [7#8] [43#8] [7#8] [11#8] [1#8] [3#8] [2#8]
    ((Model.Asn1.tryFrom_ok_iff _ _).1 (by rfl)) ((Model.Asn1.tryFrom_ok_iff
      [48#8, 27#8, 2#8, 1#8, 0#8, 2#8, 1#8, 143#8, 2#8, 1#8, 7#8, 2#8, 1#8, 43#8, 2#8, 1#8, 7#8, 2#8, 1#8, 11#8, 2#8, 1#8, 1#8,
        2#8, 1#8, 3#8, 2#8, 1#8, 2#8] _).1 (by rfl))

/-- C128: the standard asks for the fewest bytes, but zeros in front of a number are accepted and ignored. So every key has
files of unlimited length. -/
theorem C128_leading_zeros (i j : Nat) (data inner modulus exponent : List U8)
    (h : Accepts data (.sequence [algorithm, .bitString inner 0#8]))
    (h' : Accepts inner (.sequence [.integer (List.replicate i 0#8 ++ modulus), .integer (List.replicate j 0#8 ++ exponent)])) :
    publicKeyTryFrom ⟨"PUBLIC KEY".toList, data⟩ = .ok (.ok ⟨big (beVal modulus), big (beVal exponent)⟩) := by
  have hz : ∀ (i : Nat) (l : List U8), beVal (List.replicate i 0#8 ++ l) = beVal l := by
    intro i l
    induction i with
    | zero => rfl
    | succ i ih => rw [List.replicate_succ, List.cons_append, Model.Oaep.beVal_cons, ih]; simp
  exact (C67_public_iff _ _).2 ⟨rfl, _, _, ⟨inner, _, _, h, h', rfl, rfl⟩, by rw [hz, hz]⟩

example : Accepts [48#8, 9#8, 2#8, 3#8, 0#8, 0#8, 77#8, 2#8, 2#8, 0#8, 7#8]
    (.sequence [.integer (List.replicate 2 0#8 ++ [77#8]), .integer (List.replicate 1 0#8 ++ [7#8])]) :=
  (Model.Asn1.tryFrom_ok_iff _ _).1 (by rfl)

end Verif.Props
