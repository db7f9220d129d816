import Verif.Proof.ReleaseHalts
import Verif.Props.Release
import Verif.Props.Oaep

/-! # C107 and C108: more about the code compiled without overflow checks -/

namespace Verif.Props
open Verif Verif.Spec.Release Verif.Spec.Big
open _root_.Verif.Model.Big (BigUint)

/-! ## C107: every call ends, also without overflow checks -/

/-- C107: key generation. -/
theorem C107_create_keys (p q e : BigUint) : Model.Release.createKeys p q e ≠ .error .diverged :=
  Model.Release.halts_createKeys p q e

/-- C107: encryption and decryption of numbers, even if they have so many bits that counting them wraps around. -/
theorem C107_rsa (cap : Nat → Nat) (key : Model.Rsa.RsaEncryption) (m : BigUint) :
    Model.Release.encrypt cap key m ≠ .error .diverged ∧ Model.Release.decrypt cap key m ≠ .error .diverged :=
  ⟨Model.Release.halts_powMod _ _ _ _, Model.Release.halts_powMod _ _ _ _⟩

/-- C107: the mask generation function and OAEP, for every hash function that returns and has a non-empty digest. -/
theorem C107_mgf1 {N : Nat} (hN : 0 < N) (hash : List U8 → R (Vector U8 N)) (hh : ∀ m, hash m ≠ .error .diverged)
    (seed : List U8) (len : Nat) : Model.Release.mgf1 hash seed len ≠ .error .diverged :=
  Model.Release.halts_mgf1 hN hash hh seed len
theorem C107_oaep {N : Nat} (hN : 0 < N) (hash : List U8 → R (Vector U8 N)) (hh : ∀ m, hash m ≠ .error .diverged)
    (label message : List U8) (k : Nat) : Model.Release.encode hash label message k ≠ .error .diverged ∧
      Model.Release.decode hash label message k ≠ .error .diverged :=
  ⟨Model.Release.halts_encode hN hash hh label message k, Model.Release.halts_decode hN hash hh label message k⟩

/-- C107: the digest must not be empty. With a hash function whose digest has no bytes the loop of the mask generation
function never ends (the checked code panics when its counter overflows, C84). -/
theorem C107_mgf1_empty_digest (hash : List U8 → R (Vector U8 0)) (hh : ∀ m, ∃ d, hash m = .ok d) (seed : List U8) (len : Nat)
    (hl : 0 < len) (fuel : Nat) : Model.Release.mgf1Loop hash seed len fuel [] 0 = .error .diverged :=
  Model.Release.mgf1Loop_empty hash hh seed len hl fuel 0

/-- C107: encryption and decryption of messages. -/
theorem C107_messages (cap : Nat → Nat) (key : Model.Rsa.RsaEncryption) (m : List U8) :
    Model.Release.encryptMessage cap key m Model.Release.rsaPadding ≠ .error .diverged ∧
    Model.Release.decryptMessage cap key m Model.Release.rsaPadding ≠ .error .diverged := by
  have hh : ∀ m, Model.Release.sha256 m ≠ .error .diverged := fun m => by
    obtain ⟨d, h, _⟩ := C102_sha256 m; rw [h]; nofun
  exact ⟨Model.Release.halts_encryptMessage cap key m _ fun _ _ _ => (C107_oaep (by decide) _ hh _ _ _).1,
    Model.Release.halts_decryptMessage cap key m _ fun _ _ _ => (C107_oaep (by decide) _ hh _ _ _).2⟩

/-- C107: reading ASN.1 and key files. -/
theorem C107_files (bytes : List U8) (pem : Model.Pem.PEM) : Model.Release.tryFrom bytes ≠ .error .diverged ∧
    Model.Release.privateKeyTryFrom pem ≠ .error .diverged ∧ Model.Release.publicKeyTryFrom pem ≠ .error .diverged := by
  rw [C103_asn1, C103_private_key, C103_public_key]
  exact ⟨Model.Release.halts_overflowBecomes (by decide) (Model.halts_tryFrom bytes),
    Model.Release.halts_overflowBecomes (by decide) (Model.halts_privateKeyTryFrom pem),
    Model.Release.halts_overflowBecomes (by decide) (Model.halts_publicKeyTryFrom pem)⟩

example : Model.Release.mulModLoop id ⟨[7#8]⟩ 2 ⟨[]⟩ ⟨[3#8]⟩ ⟨[2#8]⟩ = .error .diverged ∧
    Model.Release.inverseLoop 2 10 7 0 1 = .error .diverged := by decide +kernel

/-! ## C108: encryption of messages, and masks longer than the counter allows -/

/-- C108: for every key whose modulus is not 0 (and up to 256 MB), `encrypt_message` does the same in both profiles: the same
ciphertext or the same panic. -/
theorem C108_encrypt_message {cap : Nat → Nat} (hc : CapOk cap) (hr : CapReal cap) (e n : Nat) (hn : 0 < n)
    (hsn : n.size ≤ 2 ^ 31 - 8) (hse : e.size ≤ 2 ^ 32 - 8) (m : List U8) :
    Model.Release.encryptMessage cap ⟨big e, big n⟩ m Model.Release.rsaPadding =
      Model.Rsa.encryptMessage cap ⟨big e, big n⟩ m Model.Oaep.rsaPadding := by
  rcases (C101_messages hr ⟨big e, big n⟩ m).1 with h | h
  · by_cases hk : m.length + 66 ≤ (n.size - 1) / 8 + 1
    · obtain ⟨em, -, -, h2⟩ := C53_encrypt_message hc e n hsn hse m hk
      rw [h2] at h; cases h
    · rw [C53_encrypt_message_too_long e n hn hsn m (by omega)] at h; cases h
  · exact h.symm

/-- C108: with the modulus 0 (the checked code panics because of an overflow) the unchecked code panics too, at the latest in
its assertion; no padding scheme changes that. -/
theorem C108_modulus_zero {ε : Type} (cap : Nat → Nat) (e : BigUint) (m : List U8) (s : Model.Rsa.PaddingScheme ε) :
    Model.Rsa.encryptMessage cap ⟨e, big 0⟩ m s = .error .overflow ∧
    ∃ p, Model.Release.encryptMessage cap ⟨e, big 0⟩ m s = .error p := by
  refine ⟨rfl, ?_⟩
  have hb : Model.Release.bitsUsed (big 0) = .ok 0 := rfl
  unfold Model.Release.encryptMessage
  simp only [hb, bind, Except.bind]
  cases s.encode [] m (Model.Release.subW 32 0 1 / 8 + 1) with
  | error p => exact ⟨p, rfl⟩
  | ok em =>
    have hcmp : ∃ o, o ≠ Ordering.lt ∧ Model.Release.cmp (big (beVal em)) (big 0) = .ok o := by
      by_cases h0 : (beVal em).size % 2 ^ 32 = 0
      · refine ⟨.eq, by decide, ?_⟩
        unfold Model.Release.cmp
        rw [Model.Release.bitsUsed_big, hb, h0]
        rfl
      · refine ⟨.gt, by decide, ?_⟩
        rw [Model.Release.cmp_big _ _ (by rw [show (0 : Nat).size = 0 from rfl]; omega), Nat.compare_eq_gt.2]
        rw [show (0 : Nat).size = 0 from rfl]; omega
    obtain ⟨o, ho, hcmp⟩ := hcmp
    simp only [Model.Big.fromBeBytes_eq, hcmp]
    rw [if_pos ho]
    exact ⟨_, rfl⟩

/-- C108: the mask generation function without overflow checks, exactly: byte `i` of the mask is byte `i mod N` of the digest
of the seed and the counter `i / N mod 2^32`. Up to `2^32` digests this is MGF1 (C51). A longer mask, which the checked code
refuses (`C51_mgf1_too_long`), repeats itself. -/
theorem C108_mgf1 {N : Nat} (hN : 0 < N) (h : List U8 → Vector U8 N) (hash : List U8 → R (Vector U8 N))
    (hh : ∀ m, hash m = .ok (h m)) (seed : List U8) (len : Nat) (hl : len + N < 2 ^ 63) :
    ∃ mask, Model.Release.mgf1 hash seed len = .ok mask ∧ mask.length = len ∧
      ∀ i (hi : i < mask.length), mask[i] = (h (seed ++ natToBE 4 (i / N % 2 ^ 32)))[i % N]'(Nat.mod_lt _ hN) :=
  Model.Release.mgf1_ok hN h hash hh seed len hl

/-- C108: so a mask of more than `2^32` digests has period `2^32 * N`. -/
theorem C108_mgf1_repeats {N : Nat} (hN : 0 < N) (h : List U8 → Vector U8 N) (hash : List U8 → R (Vector U8 N))
    (hh : ∀ m, hash m = .ok (h m)) (seed : List U8) (len : Nat) (hl : len + N < 2 ^ 63) :
    ∃ mask, Model.Release.mgf1 hash seed len = .ok mask ∧ mask.length = len ∧
      ∀ i (hi : i + 2 ^ 32 * N < mask.length), mask[i + 2 ^ 32 * N] = mask[i] := by
  obtain ⟨mask, h1, h2, h3⟩ := C108_mgf1 hN h hash hh seed len hl
  refine ⟨mask, h1, h2, fun i hi => ?_⟩
  rw [h3 _ hi, h3 i (by omega)]
  have e1 : (i + 2 ^ 32 * N) / N % 2 ^ 32 = i / N % 2 ^ 32 := by
    rw [Nat.add_mul_div_right _ _ hN, Nat.add_mod_right]
  have e2 : (i + 2 ^ 32 * N) % N = i % N := Nat.add_mul_mod_self_right _ _ _
  simp only [e1, e2]

/-- SHA-256 is such a hash function, and masks of more than 2^32 digests fit the length limit. -/
example : (∃ h : List U8 → Vector U8 32, ∀ m, Model.Release.sha256 m = .ok (h m)) ∧ 2 ^ 32 * 32 + 1000 + 32 < 2 ^ 63 :=
  ⟨⟨fun m => (C102_sha256 m).choose, fun m => (C102_sha256 m).choose_spec.1⟩, by norm_num⟩

example : 0 < 77 ∧ (77 : Nat).size ≤ 2 ^ 31 - 8 := ⟨by norm_num, (Nat.size_le.2 (by norm_num : 77 < 2 ^ 7)).trans (by norm_num)⟩

/-- C107 and C108 applied. -/
example : Model.Release.mgf1 Model.Release.sha256 [1#8] 100 ≠ .error .diverged ∧
    Model.Release.encode Model.Release.sha256 [] [1#8] 100 ≠ .error .diverged :=
  have h : ∀ m, Model.Release.sha256 m ≠ .error .diverged := fun m e => by
    obtain ⟨d, hd, -⟩ := C102_sha256 m
    rw [hd] at e
    nomatch e
  ⟨C107_mgf1 (by decide) _ h _ _, (C107_oaep (by decide) _ h _ _ _).1⟩
example (fuel : Nat) : Model.Release.mgf1Loop (fun _ => .ok #v[]) [1#8] 5 fuel [] 0 = .error .diverged :=
  C107_mgf1_empty_digest _ (fun _ => ⟨_, rfl⟩) _ _ (by decide) fuel
example : Model.Release.encryptMessage capExample ⟨big 13, big ((2 ^ 521 - 1) * (2 ^ 127 - 1))⟩ [1#8] Model.Release.rsaPadding =
    Model.Rsa.encryptMessage capExample ⟨big 13, big ((2 ^ 521 - 1) * (2 ^ 127 - 1))⟩ [1#8] Model.Oaep.rsaPadding :=
  C108_encrypt_message capExample_ok capExample_real 13 _ (by decide +kernel) example_key.modulus_size example_key.e_size _

end Verif.Props
