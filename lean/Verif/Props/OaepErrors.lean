import Verif.Proof.OaepErrors
import Verif.Props.Oaep

/-! # C114: what OAEP decoding says about every input -/

namespace Verif.Props
open Verif
open _root_.Verif.Spec.Oaep (mask Verdict)
open _root_.Verif.Model.Oaep (said)

/-- C114: decoding looks at the data block under the masks: it returns the message behind the first 1 if the block starts
with the hash of the label and only zeros are between, and otherwise reports the first thing that is wrong. For every hash
function, label, seed and data block. -/
theorem C114_decode {N : Nat} (hash : List U8 → R (Vector U8 N)) (h : List U8 → Vector U8 N) (bound : Nat)
    (hh : Computes hash h bound) (hN : 0 < N) (label seed db : List U8) (k : Nat) (hs : seed.length = N)
    (hdb : N ≤ db.length) (hk : db.length + N + 1 = k) (hlabel : label.length < bound) (hkb : k + 4 ≤ bound)
    (hk62 : k < 2 ^ 62) (hlim : (k - N - 1 + N - 1) / N < 2 ^ 32) (r : Except (List Char) (List U8)) :
    (Model.Oaep.decode hash label (mask h seed db) k).map said = .ok r ↔ Verdict (h label).toList db r := by
  obtain ⟨ms, mdb, e, h1, h2, h3⟩ := Model.Oaep.unmask_mask (h := h) hN seed db hs
  rw [e, Model.Oaep.decode_eq hh hN label ms mdb k h1 (by omega) hlabel hkb hk62 hlim, if_neg (by omega), h3]
  have hv := Model.Oaep.verdict_of_db (h label).toList db
  constructor
  · intro he
    rw [← Except.ok.inj he]
    exact hv
  · intro he
    exact congrArg Except.ok (Model.Oaep.verdict_unique hv he)

/-- C114: every input of the right length is either such a masking (of exactly one seed and data block), or its first byte is
not zero and that is what is reported. -/
theorem C114_every_input {N : Nat} (hash : List U8 → R (Vector U8 N)) (h : List U8 → Vector U8 N) (hN : 0 < N)
    (label em : List U8) (k : Nat) (hem : em.length = k) (hk : 2 * N + 1 ≤ k) :
    (∃! sd : List U8 × List U8, sd.1.length = N ∧ N ≤ sd.2.length ∧ sd.2.length + N + 1 = k ∧ em = mask h sd.1 sd.2) ∨
    (em.head? ≠ some 0#8 ∧ (Model.Oaep.decode hash label em k).map said = .ok (.error "first byte is not 0".toList)) := by
  obtain ⟨b, ms, mdb, rfl, hms, hmdb⟩ := Model.Oaep.split_em em N (by omega)
  by_cases hb : b = 0#8
  · subst hb
    left
    have hlen : (Model.Oaep.unmask h ms mdb).length = mdb.length := by
      unfold Model.Oaep.unmask
      exact Model.Oaep.length_xor _ _ (by rw [Model.Oaep.length_mgf1 hN])
    have hk' : mdb.length + N + 1 = k := by rw [← hem]; simp [hms]; omega
    refine ⟨(Spec.Oaep.xor ms (Spec.Oaep.mgf1 h mdb N), Model.Oaep.unmask h ms mdb), ⟨?_, ?_, ?_, ?_⟩, ?_⟩
    · simp only
      rw [Model.Oaep.length_xor _ _ (by rw [Model.Oaep.length_mgf1 hN, hms]), hms]
    · simp only; omega
    · simp only; omega
    · exact (Model.Oaep.mask_unmask hN ms mdb hms).symm
    · rintro ⟨seed, db⟩ ⟨h1, h2, h3, h4⟩
      simp only at h1 h2 h3 h4 ⊢
      have hd := Model.Oaep.mask_inj (h := h) hN h1 h4.symm hms
      exact Prod.ext hd.1 hd.2
  · right
    refine ⟨by simpa using hb, ?_⟩
    rw [Model.Oaep.decode_first_byte label (b :: ms ++ mdb) k b (ms ++ mdb) rfl hb]
    have : "first byte is not 0".toList = chars!"first byte is not 0" := by decide +kernel
    rw [this]
    rfl

/-- C114 for `RsaPadding` (SHA-256). -/
theorem C114_rsa_padding (label seed db : List U8) (k : Nat) (hs : seed.length = 32) (hdb : 32 ≤ db.length)
    (hk : db.length + 33 = k) (hk32 : k < 2 ^ 32) (hlabel : label.length < 2 ^ 61) (r : Except (List Char) (List U8)) :
    (Model.Oaep.rsaPadding.decode label (mask sha256Digest seed db) k).map said = .ok r ↔
      Verdict (Spec.Sha.sha256 label) db r := by
  rw [← sha256Digest_toList label hlabel]
  exact C114_decode _ _ _ sha256_computes (by omega) label seed db k hs hdb hk hlabel (sha256_limits k hk32).2.1
    (sha256_limits k hk32).2.2 (sha256_limits k hk32).1 r

/-- Not vacuous: a data block of each kind, for a label hash of two bytes. -/
example : Verdict [7#8, 8#8] [7#8, 8#8, 0#8, 0#8, 1#8, 5#8] (.ok [5#8]) := .message 2 [5#8]
example : Verdict [7#8, 8#8] [7#8, 9#8, 0#8, 0#8, 1#8, 5#8] (.error "wrong label".toList) := .wrongLabel _ (by decide)
example : Verdict [7#8, 8#8] [7#8, 8#8, 0#8, 0#8] (.error "missing 1-byte before message".toList) := .missing 2
example : Verdict [7#8, 8#8] [7#8, 8#8, 0#8, 2#8, 1#8] (.error "separator is not a 1-byte".toList) :=
  .notOne 1 2#8 [1#8] (by decide) (by decide)

/-- C114 applied: a block masked with the small hash function, with the right label and no separator. -/
example : (Model.Oaep.decode (fun m => .ok (toyHash m)) [1#8] (Spec.Oaep.mask toyHash [3#8, 4#8] [1#8, 1#8, 0#8, 0#8]) 7).map said =
    .ok (.error "missing 1-byte before message".toList) :=
  (C114_decode _ _ _ toy_computes (by decide) [1#8] [3#8, 4#8] [1#8, 1#8, 0#8, 0#8] 7 rfl (by decide) rfl (by decide) (by decide)
    (by decide) (by decide) _).2 (.missing 2)

end Verif.Props
