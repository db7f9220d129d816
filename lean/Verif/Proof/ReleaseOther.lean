import Verif.Proof.ReleaseRsa
import Verif.Proof.Halts
import Verif.Model.Rc5
import Verif.Model.Rc4
import Verif.Model.Lib
import Verif.Model.Md2
import Verif.Props.Md
import Verif.Props.Aes

/-! # Functions that never overflow -/

namespace Verif.Model.Release
open Verif

variable {α β : Type}

theorem NoOv.error {e : Panic} (h : e ≠ .overflow) : NoOv (.error e : R α) := by
  intro h'; injection h' with h'; exact h h'
theorem NoOv.throw {e : Panic} (h : e ≠ .overflow) : NoOv (throw e : R α) := NoOv.error h

/-- Take a computation apart into its steps. -/
macro "noov_step" : tactic => `(tactic| first
  | assumption
  | exact NoOv.ok _
  | exact NoOv.pure _
  | exact NoOv.error (by decide)
  | exact NoOv.throw (by decide)
  | exact noOv_idx _ _
  | exact noOv_vidx _ _
  | exact noOv_vset _ _ _
  | exact noOv_copyInto _ _ _
  | exact noOv_slice _ _ _
  | exact noOv_xorSlices _ _
  | (refine NoOv.bind ?_ (fun _ _ => ?_))
  | (refine NoOv.ite (fun _ => ?_) (fun _ => ?_)))

/-! ## RC5 -/

theorem noOv_mixStep (t c : Nat) (m : Rc5.Mix) : NoOv (Rc5.mixStep t c m) := by
  unfold Rc5.mixStep; repeat' noov_step

theorem noOv_mixLoop (t c : Nat) : ∀ (n : Nat) (m : Rc5.Mix), NoOv (Rc5.mixLoop t c n m)
  | 0, _ => .ok _
  | n + 1, m => by rw [Rc5.mixLoop]; exact (noOv_mixStep t c m).bind fun m _ => noOv_mixLoop t c n m

theorem noOv_rc5New (key : List U8) (r : U8) : NoOv (Rc5.new key r) := by
  unfold Rc5.new Rc5.expandKey
  repeat' first | exact noOv_mixLoop _ _ _ _ | noov_step

theorem noOv_encRounds (s : List U32) : ∀ (n i : Nat) (ab : U32 × U32), NoOv (Rc5.encRounds s n i ab)
  | 0, _, _ => .ok _
  | n + 1, i, ab => by
    rw [Rc5.encRounds]
    exact (noOv_idx _ _).bind fun _ _ => (noOv_idx _ _).bind fun _ _ => noOv_encRounds s n _ _

theorem noOv_decRounds (s : List U32) : ∀ (n : Nat) (ab : U32 × U32), NoOv (Rc5.decRounds s n ab)
  | 0, _ => .ok _
  | n + 1, ab => by
    rw [Rc5.decRounds]
    exact (noOv_idx _ _).bind fun _ _ => (noOv_idx _ _).bind fun _ _ => noOv_decRounds s n _

theorem noOv_rc5 (k : Rc5.RC5) (b : Vector U8 8) : NoOv (Rc5.encrypt k b) ∧ NoOv (Rc5.decrypt k b) := by
  unfold Rc5.encrypt Rc5.decrypt Rc5.encrypt32 Rc5.decrypt32
  constructor
  · repeat' first | exact noOv_encRounds _ _ _ _ | noov_step
  · repeat' first | exact noOv_decRounds _ _ _ | noov_step

/-! ## RC4 -/

theorem noOv_rc4New (key : List U8) : NoOv (Rc4.new key) := by
  unfold Rc4.new
  by_cases h : 0 < key.length
  · rw [dif_pos h]; exact .ok _
  · rw [dif_neg h]; exact .error (by decide)

theorem noOv_stream {σ : Type} (next : KeyIter σ) : ∀ (s : σ) (d : List U8), NoOv (streamEncrypt next s d).result
  | _, [] => .ok _
  | s, d :: ds => by
    unfold streamEncrypt
    split
    · exact .error (by decide)
    · exact noOv_stream next _ ds

theorem noOv_rc4 (k : Rc4.KeyStream) (d : List U8) : NoOv (Rc4.encrypt k d) ∧ NoOv (Rc4.decrypt k d) := by
  have : NoOv (Rc4.encrypt k d) := by
    unfold Rc4.encrypt
    have h := noOv_stream Rc4.next k d
    dsimp only
    split
    · exact .ok _
    · rename_i e hr
      rw [hr] at h
      exact .error fun he => h (by rw [he])
  exact ⟨this, this⟩

/-! ## AES -/

theorem noOv_aes (c : Aes.Aes) (b : Vector U8 16) : NoOv (Aes.encrypt c b) ∧ NoOv (Aes.decrypt c b) := by
  have e : ∀ (l : List Nat) (s : Aes.State), NoOv (l.foldlM (Aes.encRound c) s) := by
    intro l
    induction l with
    | nil => intro s; exact .pure _
    | cons k l ih => intro s; rw [List.foldlM_cons]; exact NoOv.bind (by unfold Aes.encRound; repeat' noov_step) fun s _ => ih s
  have d : ∀ (l : List Nat) (s : Aes.State), NoOv (l.foldlM (Aes.decRound c) s) := by
    intro l
    induction l with
    | nil => intro s; exact .pure _
    | cons k l ih => intro s; rw [List.foldlM_cons]; exact NoOv.bind (by unfold Aes.decRound; repeat' noov_step) fun s _ => ih s
  unfold Aes.encrypt Aes.decrypt
  constructor
  · repeat' first | exact e _ _ | noov_step
  · repeat' first | exact d _ _ | noov_step

/-! ## Padding and block encryption -/

theorem noOv_pads (N : Nat) (p : List U8) (b : Vector U8 N) : NoOv (Pad.bitPad N p) ∧ NoOv (Pad.bitUnpad N b) ∧
    NoOv (Pad.pkcsPad N p) ∧ (0 < N → NoOv (Pad.pkcsUnpad N b)) := by
  refine ⟨?_, ?_, ?_, fun h => ?_⟩
  · unfold Pad.bitPad; repeat' noov_step
  · unfold Pad.bitUnpad
    split
    · exact .error (by decide)
    · exact .ok _
  · unfold Pad.pkcsPad; repeat' noov_step
  · unfold Pad.pkcsUnpad
    rw [dif_pos h]
    repeat' noov_step

theorem noOv_encLoop {N : Nat} {σ : Type} (m : Mode N σ) (c : BlockCipher N) (h : ∀ s b, NoOv (m.encryptBlock c s b)) :
    ∀ (bs : List (Vector U8 N)) (s : σ), NoOv (encLoop m c s bs).2
  | [], _ => .ok _
  | b :: bs, s => by
    have hb := h s b
    unfold encLoop
    split
    · rename_i e he; rw [he] at hb; exact .error fun h' => hb (by rw [h'])
    · exact noOv_encLoop m c h bs _

theorem noOv_decLoop {N : Nat} {σ : Type} (m : Mode N σ) (c : BlockCipher N) (h : ∀ s b, NoOv (m.decryptBlock c s b)) :
    ∀ (bs : List (Vector U8 N)) (s : σ) (p : Option (Vector U8 N)), NoOv (decLoop m c s p bs).2
  | [], _, _ => .ok _
  | b :: bs, s, p => by
    have hb := h s b
    unfold decLoop
    split
    · rename_i e he; rw [he] at hb; exact .error fun h' => hb (by rw [h'])
    · cases p <;> exact noOv_decLoop m c h bs _ _

theorem noOv_block {N : Nat} {σ : Type} (m : Mode N σ) (c : BlockCipher N) (he : ∀ s b, NoOv (m.encryptBlock c s b))
    (hd : ∀ s b, NoOv (m.decryptBlock c s b)) (s : σ) (t : List U8) :
    NoOv (blockEncrypt m c s t).result ∧ NoOv (blockDecrypt m c s t).result := by
  constructor
  · unfold blockEncrypt
    by_cases hN : N = 0
    · rw [if_pos hN]; exact .error (by decide)
    · rw [if_neg hN]
      have hp := (noOv_pads N (chunksRem N t) (Vector.replicate N 0#8)).2.2.1
      split
      · rename_i e h; rw [h] at hp; exact .error fun h' => hp (by rw [h'])
      · have hl := noOv_encLoop m c he (chunksExact N t) s
        split
        · rename_i e h; rw [h] at hl; exact .error fun h' => hl (by rw [h'])
        · rename_i lastBlock _ _ _ s' h
          have hb := he s' lastBlock
          split
          · rename_i e h; rw [h] at hb; exact .error fun h' => hb (by rw [h'])
          · exact .ok _
  · unfold blockDecrypt
    by_cases hN : N = 0
    · rw [if_pos hN]; exact .error (by decide)
    · rw [if_neg hN]
      by_cases hr : chunksRem N t ≠ []
      · rw [if_pos hr]; exact .error (by decide)
      · rw [if_neg hr]
        have hl := noOv_decLoop m c hd (chunksExact N t) s none
        split
        · rename_i e h; rw [h] at hl; exact .error fun h' => hl (by rw [h'])
        · exact .error (by decide)
        · rename_i last h
          have hu := (noOv_pads N [] last).2.2.2 (by omega)
          split
          · rename_i e h; rw [h] at hu; exact .error fun h' => hu (by rw [h'])
          · exact .ok _

/-! ## Hash values -/

theorem noOv_big (x y : Big.BigUint) (b : U8) (v : U128) (l : List U8) (i k : Nat) (s : Bool) :
    NoOv (Big.add x y) ∧ NoOv (Big.addByte x b) ∧ NoOv (Big.fromU128 v) ∧ NoOv (Big.fromBeBytes l) ∧ NoOv (Big.asU128 x) ∧
    NoOv (Big.update x i s) ∧ NoOv (Big.shr x k) := by
  refine ⟨by rw [Big.add_eq]; exact .ok _, by rw [Big.addByte_eq]; exact .ok _, by rw [Big.fromU128_eq]; exact .ok _,
    by rw [Big.fromBeBytes_eq]; exact .ok _, ?_, ?_, ?_⟩
  · unfold Big.asU128; repeat' noov_step
  · unfold Big.update; repeat' noov_step
  · unfold Big.shr; repeat' noov_step

theorem noOv_u32sLoop {B : Nat} : ∀ (ws : List U32) (i : Nat) (bs : Vector U8 B), NoOv (Sha.u32sLoop i ws bs)
  | [], _, _ => .ok _
  | w :: ws, i, bs => by
    rw [Sha.u32sLoop]; exact (noOv_copyInto _ _ _).bind fun _ _ => noOv_u32sLoop ws _ _

theorem noOv_u64sLoop {B : Nat} : ∀ (ws : List U64) (i : Nat) (bs : Vector U8 B), NoOv (Sha.u64sLoop i ws bs)
  | [], _, _ => .ok _
  | w :: ws, i, bs => by
    rw [Sha.u64sLoop]; exact (noOv_copyInto _ _ _).bind fun _ _ => noOv_u64sLoop ws _ _

theorem noOv_toU32sLoop {W : Nat} : ∀ (cs : List (Vector U8 4)) (i : Nat) (ws : Vector U32 W), NoOv (Sha.toU32sLoop i cs ws)
  | [], _, _ => .ok _
  | c :: cs, i, ws => by
    rw [Sha.toU32sLoop]; exact (noOv_vset _ _ _).bind fun _ _ => noOv_toU32sLoop cs _ _

theorem noOv_chunkToArray (k : Nat) (l : List U8) : NoOv (Sha.chunkToArray k l) := by
  unfold Sha.chunkToArray
  by_cases h : l.length = k
  · rw [dif_pos h]; exact .ok _
  · rw [dif_neg h]; exact .error (by decide)

theorem noOv_toU64sLoop {W : Nat} : ∀ (cs : List (Vector U8 4)) (i : Nat) (ws : Vector U64 W), NoOv (Sha.toU64sLoop i cs ws)
  | [], _, _ => .ok _
  | c :: cs, i, ws => by
    rw [Sha.toU64sLoop]
    exact (noOv_chunkToArray _ _).bind fun _ _ => (noOv_vset _ _ _).bind fun _ _ => noOv_toU64sLoop cs _ _

theorem noOv_fromHex (N : Nat) (hex : List U8) : NoOv (Sha.fromHex N hex) := by
  unfold Sha.fromHex
  split
  · exact .ok _
  · refine NoOv.ite (fun _ => .ok _) fun _ => (noOv_chunkToArray _ _).bind fun _ _ => .ok _

end Verif.Model.Release
