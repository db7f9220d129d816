import Verif.Proof.ReleaseOther
import Verif.Props.Release
import Verif.Props.Sha
import Verif.Props.Rc5
import Verif.Spec.Block

/-! # C106: the functions that are the same in both profiles

`Model/Release.lean` models the functions whose behaviour depends on overflow checks. For all other functions of the model
that can panic, "no call ends in an overflow" is proved here, so they do not need a second version. -/

namespace Verif.Props
open Verif Verif.Model
open _root_.Verif.Model.Sha (HashValue)
open _root_.Verif.Spec (cbc)

/-- C106: AES, RC5 and RC4, for every key, whatever the outcome. -/
theorem C106_ciphers :
    (∀ k, Aes.with128 k ≠ .error .overflow) ∧ (∀ k, Aes.with192 k ≠ .error .overflow) ∧
    (∀ k, Aes.with256 k ≠ .error .overflow) ∧
    (∀ v, Aes.fromU64x2 v ≠ .error .overflow) ∧ (∀ v, Aes.fromU64x3 v ≠ .error .overflow) ∧
    (∀ v, Aes.fromU64x4 v ≠ .error .overflow) ∧
    (∀ c b, Aes.encrypt c b ≠ .error .overflow ∧ Aes.decrypt c b ≠ .error .overflow) ∧
    (∀ key rounds, Rc5.new key rounds ≠ .error .overflow) ∧
    (∀ k b, Rc5.encrypt k b ≠ .error .overflow ∧ Rc5.decrypt k b ≠ .error .overflow) ∧
    (∀ key, Rc4.new key ≠ .error .overflow) ∧
    (∀ k d, Rc4.encrypt k d ≠ .error .overflow ∧ Rc4.decrypt k d ≠ .error .overflow) := by
  have h1 : ∀ k, Aes.with128 k ≠ .error .overflow := fun k => by
    obtain ⟨⟨c, h⟩, _⟩ := C20_aes_total k (Vector.replicate 24 0#8) (Vector.replicate 32 0#8); rw [h]; nofun
  have h2 : ∀ k, Aes.with192 k ≠ .error .overflow := fun k => by
    obtain ⟨_, ⟨c, h⟩, _⟩ := C20_aes_total (Vector.replicate 16 0#8) k (Vector.replicate 32 0#8); rw [h]; nofun
  have h3 : ∀ k, Aes.with256 k ≠ .error .overflow := fun k => by
    obtain ⟨_, _, ⟨c, h⟩⟩ := C20_aes_total (Vector.replicate 16 0#8) (Vector.replicate 24 0#8) k; rw [h]; nofun
  refine ⟨h1, h2, h3, fun v => ?_, fun v => ?_, fun v => ?_, Release.noOv_aes, Release.noOv_rc5New, Release.noOv_rc5,
    Release.noOv_rc4New, Release.noOv_rc4⟩
  · obtain ⟨⟨k, h, _⟩, _⟩ := C69_key_from_words v (Vector.replicate 3 0#64) (Vector.replicate 4 0#64); rw [h]; exact h1 k
  · obtain ⟨_, ⟨k, h, _⟩, _⟩ := C69_key_from_words (Vector.replicate 2 0#64) v (Vector.replicate 4 0#64); rw [h]; exact h2 k
  · obtain ⟨_, _, ⟨k, h, _⟩⟩ := C69_key_from_words (Vector.replicate 2 0#64) (Vector.replicate 3 0#64) v; rw [h]; exact h3 k

/-- C106: padding of a final block, and removing it (PKCS padding of zero-length blocks excepted, see C103). -/
theorem C106_padding (N : Nat) (data : List U8) (block : Vector U8 N) :
    Pad.bitPad N data ≠ .error .overflow ∧ Pad.bitUnpad N block ≠ .error .overflow ∧
    Pad.pkcsPad N data ≠ .error .overflow ∧ (0 < N → Pad.pkcsUnpad N block ≠ .error .overflow) :=
  Release.noOv_pads N data block

/-- C106: block encryption in any mode whose steps do not overflow. -/
theorem C106_block_encryption {N : Nat} {σ : Type} (m : Mode N σ) (c : BlockCipher N)
    (he : ∀ s b, m.encryptBlock c s b ≠ .error .overflow) (hd : ∀ s b, m.decryptBlock c s b ≠ .error .overflow)
    (s : σ) (text : List U8) :
    (blockEncrypt m c s text).result ≠ .error .overflow ∧ (blockDecrypt m c s text).result ≠ .error .overflow :=
  Release.noOv_block m c he hd s text

/-- C106: in particular, ECB and CBC with any cipher that does not overflow. -/
theorem C106_ecb_cbc {N : Nat} (c : BlockCipher N) (he : ∀ b, c.encrypt b ≠ .error .overflow)
    (hd : ∀ b, c.decrypt b ≠ .error .overflow) (iv : Vector U8 N) (text : List U8) :
    (blockEncrypt (ecb N) c () text).result ≠ .error .overflow ∧ (blockDecrypt (ecb N) c () text).result ≠ .error .overflow ∧
    (blockEncrypt (cbc N) c iv text).result ≠ .error .overflow ∧
    (blockDecrypt (cbc N) c iv text).result ≠ .error .overflow := by
  have a := C106_block_encryption (ecb N) c (fun _ b => Release.NoOv.bind (he b) fun _ _ => .ok _)
    (fun _ b => Release.NoOv.bind (hd b) fun _ _ => .ok _) () text
  have b := C106_block_encryption (cbc N) c (fun _ b => Release.NoOv.bind (he _) fun _ _ => .ok _)
    (fun _ b => Release.NoOv.bind (hd b) fun _ _ => .ok _) iv text
  exact ⟨a.1, a.2, b.1, b.2⟩

example (key : List U8) (rounds : U8) (k : Rc5.RC5) (_ : Rc5.new key rounds = .ok k) (iv : Vector U8 8) (text : List U8) :
    (blockEncrypt (cbc 8) (Rc5.cipher k) iv text).result ≠ .error .overflow :=
  (C106_ecb_cbc _ (fun b => (C106_ciphers.2.2.2.2.2.2.2.2.1 k b).1) (fun b => (C106_ciphers.2.2.2.2.2.2.2.2.1 k b).2) iv text).2.2.1

/-- C106: combining data with a key stream. -/
theorem C106_stream {σ : Type} (next : KeyIter σ) (s : σ) (data : List U8) :
    (streamEncrypt next s data).result ≠ .error .overflow := Release.noOv_stream next s data

/-- C106: MD2, SHA-384 and SHA-512 (of anything that can be in memory), and the conversions of hash values. -/
theorem C106_hashes :
    (∀ m, Md2.hash m ≠ .error .overflow) ∧
    (∀ m : List U8, m.length < 2 ^ 64 → Sha.sha384 m ≠ .error .overflow ∧ Sha.sha512 m ≠ .error .overflow) ∧
    (∀ (W B : Nat) (w : Vector U32 W), Sha.u32sToBytes B w ≠ .error .overflow) ∧
    (∀ (W B : Nat) (w : Vector U64 W), Sha.u64sToBytes B w ≠ .error .overflow) ∧
    (∀ (B W : Nat) (h : HashValue B), Sha.bytesToU32s W h ≠ .error .overflow ∧ Sha.bytesToU64s W h ≠ .error .overflow) ∧
    (∀ N hex, Sha.fromHex N hex ≠ .error .overflow) := by
  refine ⟨fun m => ?_, fun m hm => ?_, fun W B w => Release.noOv_u32sLoop _ _ _, fun W B w => Release.noOv_u64sLoop _ _ _,
    fun B W h => ⟨Release.noOv_toU32sLoop _ _ _, Release.noOv_toU64sLoop _ _ _⟩, Release.noOv_fromHex⟩
  · obtain ⟨v, h, _⟩ := C32_md2 m; rw [h]; nofun
  · obtain ⟨a, ha, _⟩ := C27_sha384 m hm
    obtain ⟨b, hb, _⟩ := C27_sha512 m hm
    rw [ha, hb]; constructor <;> nofun

/-- C106: arithmetic on big integers that does not depend on the profile, and the PKCS#1 key structures. -/
theorem C106_big_and_keys (x y : Big.BigUint) (b : U8) (v : U128) (bytes : List U8) (i k : Nat) (set : Bool) (a : Asn1.Asn1) :
    Big.add x y ≠ .error .overflow ∧ Big.addByte x b ≠ .error .overflow ∧ Big.fromU128 v ≠ .error .overflow ∧
    Big.fromBeBytes bytes ≠ .error .overflow ∧ Big.asU128 x ≠ .error .overflow ∧ Big.update x i set ≠ .error .overflow ∧
    Big.shr x k ≠ .error .overflow ∧
    RsaAsn1.PrivateKey.fromAsn1 a ≠ .error .overflow ∧ RsaAsn1.PublicKey.fromAsn1 a ≠ .error .overflow := by
  obtain ⟨h1, h2, h3, h4, h5, h6, h7⟩ := Release.noOv_big x y b v bytes i k set
  exact ⟨h1, h2, h3, h4, h5, h6, h7, Release.noOv_privateKey a, Release.noOv_publicKey a⟩

/-! The statements are about calls that do happen: some of these functions panic for other reasons. -/
example : Rc4.new [] = .error .divZero := rfl
example : Pad.pkcsUnpad 2 #v[0#8, 3#8] = .error .explicit := by decide +kernel
example : Sha.bytesToU64s 2 (Vector.replicate 16 0#8) = .error .unwrap := by decide +kernel
example : Sha.u32sToBytes 4 #v[1#32, 2#32] = .error .index := by decide +kernel

end Verif.Props
