import Verif.Props.RsaExact
import Mathlib.Data.Nat.ChineseRemainder

/-! # C122: what RSA ciphertexts reveal without the private key

Textbook RSA (`encrypt`, `decrypt`) has no padding, and the padding of `encrypt_message` uses the same seed at every call
(C55). Each theorem says which public computation recovers a plaintext. -/

namespace Verif.Props
open Verif Verif.Model.Big Verif.Model.Rsa Verif.Spec.Big

/-! ## Textbook RSA -/

/-- C122: the decryption of a ciphertext multiplied by `r ^ e` is the plaintext multiplied by `r`, so decrypting an
innocent-looking number gives away the plaintext of another. -/
theorem C122_blinding {cap : Nat → Nat} (hc : CapOk cap) (p q e d : Nat) (key : KeyPair p q e d) (m r c : Nat)
    (hm : m < p * q) (henc : encrypt cap ⟨big e, big (p * q)⟩ (big m) = .ok (big c)) :
    decrypt cap ⟨big d, big (p * q)⟩ (big (c * r ^ e % (p * q))) = .ok (big (m * r % (p * q))) := by
  have hn : 2 ≤ p * q := Nat.le_trans key.p_prime.two_le (Nat.le_mul_of_pos_right p key.q_prime.pos)
  have hs : ∀ z, z < p * q → z.size ≤ 2 ^ 31 - 8 := fun z hz => Nat.le_trans (Nat.size_le_size hz.le) key.modulus_size
  have h1 := (C50_encrypt hc m e (p * q) hn key.modulus_size (hs m hm) key.e_size).1
  rw [henc] at h1
  have hcv : c = m ^ e % (p * q) := by
    have := congrArg val (Except.ok.inj h1)
    rwa [Model.Big.val_big, Model.Big.val_big] at this
  have hlt : m * r % (p * q) < p * q := Nat.mod_lt _ (by omega)
  have hlt' : c * r ^ e % (p * q) < p * q := Nat.mod_lt _ (by omega)
  rw [(C50_decrypt hc _ d (p * q) hn key.modulus_size (hs _ hlt') key.d_size).1]
  have e1 : c * r ^ e % (p * q) = (m * r % (p * q)) ^ e % (p * q) := by
    rw [hcv, ← Nat.pow_mod, Nat.mul_pow, Nat.mod_mul_mod]
  rw [e1, ← Nat.pow_mod, ← Nat.pow_mul, Model.Rsa.rsa_correct p q e d _ key.p_prime key.q_prime key.distinct key.inverse hlt]

/-- C122: the ciphertext of a number whose `e`-th power is below the modulus is that power: its plain root is the message. -/
theorem C122_small {cap : Nat → Nat} (hc : CapOk cap) (m e n c : Nat) (hn : 2 ≤ n) (hsn : n.size ≤ 2 ^ 31 - 8)
    (hse : e.size ≤ 2 ^ 32 - 8) (he : 1 ≤ e) (hm : m ^ e < n)
    (henc : encrypt cap ⟨big e, big n⟩ (big m) = .ok (big c)) (x : Nat) : x ^ e = c ↔ x = m := by
  have hmn : m < n := Nat.lt_of_le_of_lt (Nat.le_self_pow (by omega) m) hm
  have h1 := (C50_encrypt hc m e n hn hsn (Nat.le_trans (Nat.size_le_size hmn.le) hsn) hse).1
  rw [henc, Nat.mod_eq_of_lt hm] at h1
  have hcv : c = m ^ e := by
    have := congrArg val (Except.ok.inj h1)
    rwa [Model.Big.val_big, Model.Big.val_big] at this
  rw [hcv]
  exact ⟨fun h => Nat.pow_left_injective (by omega) h, fun h => by rw [h]⟩

/-- C122, helper: from two powers of a number modulo `n` with coprime exponents the number is determined by a linear
congruence with known coefficients. -/
theorem common_modulus (m n e1 e2 a b : Nat) (hab : a * e1 = b * e2 + 1) (hco : Nat.Coprime m n) (hm : m < n) (x : Nat)
    (hx : x < n) : x * (m ^ e2 % n) ^ b ≡ (m ^ e1 % n) ^ a [MOD n] ↔ x = m := by
  have h1 : (m ^ e1 % n) ^ a ≡ m * m ^ (b * e2) [MOD n] := by
    have := (Nat.mod_modEq (m ^ e1) n).pow a
    rwa [← Nat.pow_mul, Nat.mul_comm e1, hab, Nat.pow_succ, Nat.mul_comm] at this
  have h2 : x * (m ^ e2 % n) ^ b ≡ x * m ^ (b * e2) [MOD n] := by
    have := (Nat.mod_modEq (m ^ e2) n).pow b
    rw [← Nat.pow_mul, Nat.mul_comm e2] at this
    exact this.mul_left x
  constructor
  · intro h
    have h3 := (h2.symm.trans h).trans h1
    have h4 := Nat.ModEq.cancel_right_of_coprime (c := m ^ (b * e2))
      ((Nat.Coprime.pow_right _ hco.symm)) h3
    exact Nat.ModEq.eq_of_lt_of_lt h4 hx hm
  · rintro rfl
    exact h2.trans h1.symm

/-- C122, two exponents for one modulus: if a number is encrypted under two coprime exponents and the same modulus, it is
the only solution of a linear congruence whose coefficients are powers of the ciphertexts. (`a` and `b` depend on the
exponents only; they exist up to exchanging `e1` and `e2`.) -/
theorem C122_common_modulus {cap : Nat → Nat} (hc : CapOk cap) (m n e1 e2 a b c1 c2 : Nat) (hn : 2 ≤ n)
    (hsn : n.size ≤ 2 ^ 31 - 8) (hse1 : e1.size ≤ 2 ^ 32 - 8) (hse2 : e2.size ≤ 2 ^ 32 - 8) (hab : a * e1 = b * e2 + 1)
    (hco : Nat.Coprime m n) (hm : m < n) (h1 : encrypt cap ⟨big e1, big n⟩ (big m) = .ok (big c1))
    (h2 : encrypt cap ⟨big e2, big n⟩ (big m) = .ok (big c2)) (x : Nat) (hx : x < n) :
    x * c2 ^ b ≡ c1 ^ a [MOD n] ↔ x = m := by
  have hms := Nat.le_trans (Nat.size_le_size hm.le) hsn
  rw [(C50_encrypt hc m e1 n hn hsn hms hse1).1] at h1
  rw [(C50_encrypt hc m e2 n hn hsn hms hse2).1] at h2
  have e1' := congrArg val (Except.ok.inj h1)
  have e2' := congrArg val (Except.ok.inj h2)
  rw [Model.Big.val_big, Model.Big.val_big] at e1' e2'
  rw [← e1', ← e2']
  exact common_modulus m n e1 e2 a b hab hco hm x hx

/-! ## Padded messages -/

theorem decode_encoded (message : List U8) (k : Nat) (hm : message.length + 66 ≤ k) (hk : k < 2 ^ 32) (r : Nat)
    (hr : r = beVal (Spec.Oaep.encode sha256Digest (List.replicate 32 42#8) [] message k)) :
    Model.Oaep.rsaPadding.decode [] (natToBE k r) k = .ok (.ok message) := by
  have hl := Model.Oaep.length_encode (h := sha256Digest) (by omega) (List.replicate 32 42#8) [] message k (by simp) hm
  have h1 := C52_rsa_padding [] message k hm hk (by simp)
  rw [C53_rsa_padding [] message k hm hk (by simp)] at h1
  have h2 := natToBE_beVal (Spec.Oaep.encode sha256Digest (List.replicate 32 42#8) [] message k)
  rw [hl, ← hr] at h2
  rw [h2]
  simpa only [bind, Except.bind] using h1

/-- C122, several recipients: if the same message is encrypted with `encrypt_message` for at least `e` recipients whose
moduli are pairwise coprime and equally long and whose public exponent is `e` (for instance three recipients with exponent
3), then the number `X` that the Chinese remainder theorem makes from the ciphertexts is an `e`-th power, and decoding its
root gives the message. No private key is involved. (With a fresh seed per call, as RFC 8017 demands, the encodings would
differ.) -/
theorem C122_broadcast {cap : Nat → Nat} (hc : CapOk cap) (e k : Nat) (he : 1 ≤ e) (hse : e.size ≤ 2 ^ 32 - 8)
    (ns : List Nat) (hco : ns.Pairwise Nat.Coprime) (hcount : e ≤ ns.length) (hk : k < 2 ^ 28)
    (hlen : ∀ n ∈ ns, n.size ≤ 2 ^ 31 - 8 ∧ (n.size - 1) / 8 + 1 = k) (message : List U8) (hm : message.length + 66 ≤ k)
    (X : Nat) (hX : X < ns.prod)
    (hct : ∀ n ∈ ns, ∃ ct, encryptMessage cap ⟨big e, big n⟩ message Model.Oaep.rsaPadding = .ok ct ∧ X ≡ beVal ct [MOD n]) :
    ∃! r, r ^ e = X ∧ Model.Oaep.rsaPadding.decode [] (natToBE k r) k = .ok (.ok message) := by
  obtain ⟨em, hem⟩ : ∃ em, em = Spec.Oaep.encode sha256Digest (List.replicate 32 42#8) [] message k := ⟨_, rfl⟩
  have hall : ∀ n ∈ ns, beVal em < n ∧ X ≡ beVal em ^ e [MOD n] := by
    intro n hn
    obtain ⟨h1, h2⟩ := hlen n hn
    obtain ⟨ct, h3, h4⟩ := hct n hn
    obtain ⟨em', g1, g2, g3⟩ := C53_encrypt_message hc e n h1 hse message (by omega)
    rw [h2, ← hem] at g1
    subst g1
    rw [g3] at h3
    rw [← Except.ok.inj h3, Model.Big.toBeBytes_val, Model.Big.val_big] at h4
    exact ⟨g2, h4.trans (Nat.mod_modEq _ _)⟩
  have hlt : beVal em ^ e < ns.prod := by
    have : ∀ (l : List Nat), (∀ n ∈ l, beVal em < n) → l ≠ [] → beVal em ^ l.length < l.prod := by
      intro l
      induction l with
      | nil => intro _ h; exact absurd rfl h
      | cons n l ih =>
        intro h _
        rw [List.length_cons, List.prod_cons, Nat.pow_succ, Nat.mul_comm]
        by_cases hl : l = []
        · subst hl
          simpa using h n (by simp)
        · exact Nat.mul_lt_mul'' (h n (by simp)) (ih (fun x hx => h x (by simp [hx])) hl)
    have h1 := this ns (fun n hn => (hall n hn).1) (by intro h; subst h; simp at hcount; omega)
    refine Nat.lt_of_le_of_lt ?_ h1
    by_cases h0 : beVal em = 0
    · rw [h0, Nat.zero_pow he]; exact Nat.zero_le _
    · exact Nat.pow_le_pow_right (by omega) hcount
  have hXe : X = beVal em ^ e := by
    refine Nat.ModEq.eq_of_lt_of_lt ((Nat.modEq_list_prod_iff hco).2 fun i => ?_) hX hlt
    exact (hall _ (List.get_mem ns i)).2
  refine ⟨beVal em, ⟨hXe.symm, decode_encoded message k hm (by omega) _ (by rw [hem])⟩, ?_⟩
  rintro r ⟨hr, _⟩
  exact Nat.pow_left_injective (by omega) (hr.trans hXe)

/-- C122: that number `X` exists and is unique; `Nat.chineseRemainderOfList` computes it. -/
theorem C122_broadcast_number {cap : Nat → Nat} (hc : CapOk cap) (e : Nat) (hse : e.size ≤ 2 ^ 32 - 8)
    (ns : List Nat) (hco : ns.Pairwise Nat.Coprime) (message : List U8)
    (hlen : ∀ n ∈ ns, n.size ≤ 2 ^ 31 - 8 ∧ message.length + 66 ≤ (n.size - 1) / 8 + 1) :
    ∃! X, X < ns.prod ∧
      ∀ n ∈ ns, ∃ ct, encryptMessage cap ⟨big e, big n⟩ message Model.Oaep.rsaPadding = .ok ct ∧ X ≡ beVal ct [MOD n] := by
  have hex : ∀ n, ∃ ct, n ∈ ns → encryptMessage cap ⟨big e, big n⟩ message Model.Oaep.rsaPadding = .ok ct := by
    intro n
    by_cases hn : n ∈ ns
    · obtain ⟨em, _, _, h3⟩ := C53_encrypt_message hc e n (hlen n hn).1 hse message (hlen n hn).2
      exact ⟨_, fun _ => h3⟩
    · exact ⟨[], fun h => absurd h hn⟩
  choose ct hct using hex
  have h0 : ∀ n ∈ ns, id n ≠ 0 := by
    rintro n hn rfl
    have := (hlen 0 hn).2
    simp at this
  obtain ⟨X, hX⟩ : ∃ X : { k // ∀ i ∈ ns, k ≡ beVal (ct i) [MOD id i] },
      X = Nat.chineseRemainderOfList (fun n => beVal (ct n)) id ns hco := ⟨_, rfl⟩
  have hlt : X.1 < ns.prod := by
    have := Nat.chineseRemainderOfList_lt_prod (fun n => beVal (ct n)) id ns hco h0
    rw [List.map_id] at this
    rw [hX]
    exact this
  refine ⟨X.1, ⟨hlt, fun n hn => ⟨ct n, hct n hn, X.2 n hn⟩⟩, ?_⟩
  rintro Y ⟨hY, hY'⟩
  refine Nat.ModEq.eq_of_lt_of_lt ((Nat.modEq_list_prod_iff hco).2 fun i => ?_) hY hlt
  have hi := List.get_mem ns i
  obtain ⟨c, h1, h2⟩ := hY' _ hi
  rw [hct _ hi] at h1
  rw [← Except.ok.inj h1] at h2
  exact h2.trans (X.2 _ hi).symm

/-- C122, two exponents for one modulus, padded messages: the encoding is the only solution of the congruence (if it is
coprime to the modulus), and decoding it gives the message. -/
theorem C122_common_modulus_message {cap : Nat → Nat} (hc : CapOk cap) (n e1 e2 a b k : Nat) (hsn : n.size ≤ 2 ^ 31 - 8)
    (hse1 : e1.size ≤ 2 ^ 32 - 8) (hse2 : e2.size ≤ 2 ^ 32 - 8) (hab : a * e1 = b * e2 + 1) (message ct1 ct2 : List U8)
    (hk : k = (n.size - 1) / 8 + 1) (hm : message.length + 66 ≤ k)
    (h1 : encryptMessage cap ⟨big e1, big n⟩ message Model.Oaep.rsaPadding = .ok ct1)
    (h2 : encryptMessage cap ⟨big e2, big n⟩ message Model.Oaep.rsaPadding = .ok ct2)
    (hco : Nat.Coprime (beVal (Spec.Oaep.encode sha256Digest (List.replicate 32 42#8) [] message k)) n) :
    ∃! x, x < n ∧ x * beVal ct2 ^ b ≡ beVal ct1 ^ a [MOD n] ∧
      Model.Oaep.rsaPadding.decode [] (natToBE k x) k = .ok (.ok message) := by
  subst hk
  obtain ⟨em, g1, g2, g3⟩ := C53_encrypt_message hc e1 n hsn hse1 message hm
  obtain ⟨em', f1, _, f3⟩ := C53_encrypt_message hc e2 n hsn hse2 message hm
  rw [← f1] at g1
  subst g1
  rw [← f1] at hco
  rw [g3] at h1
  rw [f3] at h2
  have hv1 : beVal ct1 = beVal em ^ e1 % n := by
    rw [← Except.ok.inj h1, Model.Big.toBeBytes_val, Model.Big.val_big]
  have hv2 : beVal ct2 = beVal em ^ e2 % n := by
    rw [← Except.ok.inj h2, Model.Big.toBeBytes_val, Model.Big.val_big]
  rw [hv1, hv2]
  refine ⟨beVal em, ⟨g2, (common_modulus _ n e1 e2 a b hab hco g2 _ g2).2 rfl,
    decode_encoded message _ hm (by omega) _ (by rw [f1])⟩, ?_⟩
  rintro x ⟨hx, hx', _⟩
  exact (common_modulus _ n e1 e2 a b hab hco g2 x hx).1 hx'

/-! ## The hypotheses can be met -/

/-- Blinding and small messages, with the key of the RSA paper's style example: n = 61 * 53, e = 17, d = 2753. -/
example : encrypt exactCap ⟨big 17, big 3233⟩ (big 65) = .ok (big 2790) ∧
    decrypt exactCap ⟨big 2753, big 3233⟩ (big (2790 * 2 ^ 17 % 3233)) = .ok (big (65 * 2 % 3233)) := by
  have h : ∀ m e, m < 3233 → e < 3233 → encrypt exactCap ⟨big e, big 3233⟩ (big m) = .ok (big (m ^ e % 3233)) := by
    intro m e hm he
    have hs : ∀ z, z < 3233 → z.size ≤ 12 := fun z hz => Nat.size_le.2 (by omega)
    exact (C50_encrypt exactCap_ok m e 3233 (by omega) (Nat.le_trans (Nat.size_le.2 (by norm_num : 3233 < 2 ^ 12)) (by norm_num))
      (Nat.le_trans (hs m hm) (by norm_num)) (Nat.le_trans (hs e he) (by norm_num))).1
  refine ⟨(h 65 17 (by norm_num) (by norm_num)).trans (by norm_num), ?_⟩
  exact (h (2790 * 2 ^ 17 % 3233) 2753 (by norm_num) (by norm_num)).trans (by decide +kernel)

/-- Three moduli of 81 bytes that are pairwise coprime, for messages of up to 15 bytes and exponent 3. -/
theorem example_moduli : [2 ^ 640, 2 ^ 640 + 1, 2 ^ 640 + 3].Pairwise Nat.Coprime ∧
    ∀ n ∈ [2 ^ 640, 2 ^ 640 + 1, 2 ^ 640 + 3], n.size ≤ 2 ^ 31 - 8 ∧ (n.size - 1) / 8 + 1 = 81 := by
  have hsz : ∀ n, 2 ^ 640 ≤ n → n < 2 ^ 641 → n.size = 641 := by
    intro n h1 h2
    have := Nat.lt_size.2 h1
    have := Nat.size_le.2 h2
    omega
  constructor
  · simp only [List.pairwise_cons, List.mem_cons, List.not_mem_nil, or_false, forall_eq_or_imp, forall_eq]
    refine ⟨⟨?_, ?_⟩, ?_, by simp, by simp⟩ <;> · unfold Nat.Coprime; decide +kernel
  · intro n hn
    have : n.size = 641 := by
      simp only [List.mem_cons, List.not_mem_nil, or_false] at hn
      rcases hn with h | h | h <;> rw [h] <;> exact hsz _ (by decide +kernel) (by decide +kernel)
    omega

/-- Coefficients for the exponents 3 and 65537. -/
example : 43691 * 3 = 2 * 65536 + 1 ∧ 21846 * 3 = 1 * 65537 + 1 := by decide

/-- C122 applied: to the key of the example, to small numbers, and to three moduli. -/
example (m r c : Nat) (hm : m < (2 ^ 521 - 1) * (2 ^ 127 - 1))
    (henc : encrypt exactCap ⟨big 13, big ((2 ^ 521 - 1) * (2 ^ 127 - 1))⟩ (big m) = .ok (big c)) :
    decrypt exactCap ⟨big exampleD, big ((2 ^ 521 - 1) * (2 ^ 127 - 1))⟩ (big (c * r ^ 13 % ((2 ^ 521 - 1) * (2 ^ 127 - 1)))) =
      .ok (big (m * r % ((2 ^ 521 - 1) * (2 ^ 127 - 1)))) :=
  C122_blinding exactCap_ok _ _ 13 exampleD example_key m r c hm henc
example (x : Nat) : x ^ 3 = 1331 ↔ x = 11 := by
  have h : ∀ x : Nat, x < 2 ^ 12 → x.size ≤ 12 := fun x => Nat.size_le.2
  have h1 := h 3233 (by norm_num)
  have h2 := h 3 (by norm_num)
  exact C122_small exactCap_ok 11 3 3233 1331 (by norm_num) (by omega) (by omega) (by norm_num) (by norm_num) (by decide +kernel) x
example (x : Nat) (hx : x < 3233) : x * 2870 ^ 1 ≡ 2790 ^ 2 [MOD 3233] ↔ x = 65 := by
  have h : ∀ x : Nat, x < 2 ^ 12 → x.size ≤ 12 := fun x => Nat.size_le.2
  have h1 := h 3233 (by norm_num)
  have h2 := h 17 (by norm_num)
  have h3 := h 33 (by norm_num)
  exact C122_common_modulus exactCap_ok 65 3233 17 33 2 1 2790 2870 (by norm_num) (by omega) (by omega) (by omega) (by norm_num)
    (by decide) (by norm_num) (by decide +kernel) (by decide +kernel) x hx
example : ∃ X r, r ^ 3 = X ∧ Model.Oaep.rsaPadding.decode [] (natToBE 81 r) 81 = .ok (.ok [1, 2, 3]) := by
  have hse : (3 : Nat).size ≤ 2 ^ 32 - 8 := Nat.le_trans (Nat.size_le.2 (by norm_num : 3 < 2 ^ 2)) (by norm_num)
  obtain ⟨X, ⟨h1, h2⟩, -⟩ := C122_broadcast_number exactCap_ok 3 hse _ example_moduli.1 [1, 2, 3]
    (fun n hn => ⟨(example_moduli.2 n hn).1, by rw [(example_moduli.2 n hn).2]; decide⟩)
  obtain ⟨r, h, -⟩ := C122_broadcast exactCap_ok 3 81 (by norm_num) hse _ example_moduli.1 (by decide) (by norm_num) example_moduli.2
    [1, 2, 3] (by decide) X h1 h2
  exact ⟨X, r, h⟩

end Verif.Props
