import Verif.Proof.Effects
import Verif.Props.Modes

/-! # C109, C110: callbacks and lazy iterators that are arbitrary code -/

namespace Verif.Props
open Verif Model Spec
open _root_.Verif.Model.Effects (Eff Eff.exec streamNext pull)
open _root_.Verif.Spec.Effects (onFst onSnd stepMode deliver push pushUpTo Event loggedBlock loggedByte bytesOf keysFrom)
open _root_.Verif.Spec.Effects (listIter keyIter sessions)

/-! ## C109 -/

/-- C109: whatever the callback does with the bytes (it has its own state and may panic), a call of `encrypt` with it is the
same as handing it the bytes of the recorded run one after the other, ending at the callback's first panic or else as the
recorded run ends. -/
theorem C109_encrypt {N : Nat} {σ τ : Type} (m : Mode N σ) (c : BlockCipher N) (output : U8 → τ → R Unit × τ)
    (plaintext : List U8) (s : σ) (t : τ) :
    ∃ s', Eff.exec (Effects.encrypt (fun b => onFst (stepMode (m.encryptBlock c) b)) (fun b => onSnd (output b)) plaintext)
        (s, t) =
      ((deliver output (blockEncrypt m c s plaintext).emitted (blockEncrypt m c s plaintext).result t).1,
        (s', (deliver output (blockEncrypt m c s plaintext).emitted (blockEncrypt m c s plaintext).result t).2)) :=
  Effects.exec_encrypt m c output plaintext s t

/-- C109, decryption. -/
theorem C109_decrypt {N : Nat} {σ τ : Type} (m : Mode N σ) (c : BlockCipher N) (output : U8 → τ → R Unit × τ)
    (ciphertext : List U8) (s : σ) (t : τ) :
    ∃ s', Eff.exec (Effects.decrypt (fun b => onFst (stepMode (m.decryptBlock c) b)) (fun b => onSnd (output b)) ciphertext)
        (s, t) =
      ((deliver output (blockDecrypt m c s ciphertext).emitted (blockDecrypt m c s ciphertext).result t).1,
        (s', (deliver output (blockDecrypt m c s ciphertext).emitted (blockDecrypt m c s ciphertext).result t).2)) :=
  Effects.exec_decrypt m c output ciphertext s t

/-- C109: `|b| v.push(b)` collects exactly the bytes of the run after what `v` held. -/
theorem C109_collect {N : Nat} {σ : Type} (m : Mode N σ) (c : BlockCipher N) (input : List U8) (s : σ) (v : List U8) :
    (∃ s', Eff.exec (Effects.encrypt (fun b => onFst (stepMode (m.encryptBlock c) b)) (fun b => onSnd (push b)) input) (s, v) =
      ((blockEncrypt m c s input).result, (s', v ++ (blockEncrypt m c s input).emitted))) ∧
    (∃ s', Eff.exec (Effects.decrypt (fun b => onFst (stepMode (m.decryptBlock c) b)) (fun b => onSnd (push b)) input) (s, v) =
      ((blockDecrypt m c s input).result, (s', v ++ (blockDecrypt m c s input).emitted))) := by
  have h1 := C109_encrypt m c push input s v
  have h2 := C109_decrypt m c push input s v
  simp only [Effects.deliver_push] at h1 h2
  exact ⟨h1, h2⟩

/-- C109: a callback that panics when its buffer of `k` bytes is full has received exactly the first `k` bytes of the run;
the panic reaches the caller unless everything fitted. -/
theorem C109_bounded {N : Nat} {σ : Type} (m : Mode N σ) (c : BlockCipher N) (k : Nat) (input : List U8) (s : σ) :
    (∃ s', Eff.exec (Effects.encrypt (fun b => onFst (stepMode (m.encryptBlock c) b)) (fun b => onSnd (pushUpTo k b)) input)
        (s, []) =
      (if (blockEncrypt m c s input).emitted.length ≤ k then (blockEncrypt m c s input).result else .error .index,
        (s', (blockEncrypt m c s input).emitted.take k))) ∧
    (∃ s', Eff.exec (Effects.decrypt (fun b => onFst (stepMode (m.decryptBlock c) b)) (fun b => onSnd (pushUpTo k b)) input)
        (s, []) =
      (if (blockDecrypt m c s input).emitted.length ≤ k then (blockDecrypt m c s input).result else .error .index,
        (s', (blockDecrypt m c s input).emitted.take k))) := by
  have h1 := C109_encrypt m c (pushUpTo k) input s []
  have h2 := C109_decrypt m c (pushUpTo k) input s []
  simp only [Effects.deliver_pushUpTo k _ _ [] (Nat.zero_le _), List.length_nil, Nat.zero_add, List.nil_append] at h1 h2
  exact ⟨h1, h2⟩

/-- C109, order of effects when encrypting: for each block of the padded message in turn, the block goes through the cipher
once and its bytes are handed out before the next block is touched. -/
theorem C109_encrypt_order {N : Nat} (hN : 1 ≤ N) (f : Vector U8 N → Vector U8 N) (plaintext : List U8)
    (log : List (Event N)) :
    ∃ bs : List (Vector U8 N), bs.flatMap Vector.toList = padded N plaintext ∧
      Eff.exec (Effects.encrypt (loggedBlock f) loggedByte plaintext) log =
        (.ok (), log ++ bs.flatMap fun b => .block b :: bytesOf (f b).toList) := by
  obtain ⟨bs, tail, e, ht, _⟩ := exists_chunks hN plaintext
  have ht' : tail.length < N := ht ▸ Nat.mod_lt _ hN
  obtain ⟨last, _, hl⟩ := Pad.pkcsPad_ok ht'
  refine ⟨bs ++ [last], ?_, Effects.exec_encrypt_logged f plaintext bs tail last e ht' hl log⟩
  unfold padded
  rw [List.flatMap_append, e, ← e, ← ht, e]
  simp [hl, pkcs7]

/-- C109, order of effects when decrypting: the first block goes through the cipher; then, for each further block, that block
goes through the cipher before the bytes of the block *before it* are handed out; then the padding of the last block is
checked and what it leaves of the last block is handed out. So the callback runs one block behind, and of the last block it
sees nothing if the padding is bad. -/
theorem C109_decrypt_order {N : Nat} (hN : 1 ≤ N) (f : Vector U8 N → Vector U8 N) (b : Vector U8 N)
    (bs : List (Vector U8 N)) (log : List (Event N)) (last : Vector U8 N) (hlast : (b :: bs).getLast? = some last) :
    Eff.exec (Effects.decrypt (loggedBlock f) loggedByte ((b :: bs).flatMap Vector.toList)) log =
      if ((f last)[N - 1]).toNat ≤ N then
        (.ok (), log ++ .block b :: ((b :: bs).zip bs).flatMap (fun pb => .block pb.2 :: bytesOf (f pb.1).toList) ++
          bytesOf ((f last).toList.take (N - ((f last)[N - 1]).toNat)))
      else (.error .explicit,
        log ++ .block b :: ((b :: bs).zip bs).flatMap (fun pb => .block pb.2 :: bytesOf (f pb.1).toList)) := by
  have h : bs.getLast?.getD b = last := by
    rw [List.getLast?_cons] at hlast
    exact Option.some.inj hlast
  rw [Effects.exec_decrypt_logged hN, h, Pad.pkcsUnpad_of_last hN]
  by_cases hp : N < ((f last)[N - 1]).toNat
  · rw [if_pos hp, if_neg (by omega)]
  · rw [if_neg hp, if_pos (by omega)]

/-- The hypotheses are met: two blocks of two bytes, the second ending in a bad or a good padding. -/
example : Eff.exec (Effects.decrypt (loggedBlock id) loggedByte [7, 8, 9, 1]) ([] : List (Event 2)) =
    (.ok (), [.block #v[7, 8], .block #v[9, 1], .byte 7, .byte 8, .byte 9]) := by decide

example : Eff.exec (Effects.decrypt (loggedBlock id) loggedByte [7, 8, 9, 3]) ([] : List (Event 2)) =
    (.error .explicit, [.block #v[7, 8], .block #v[9, 3], .byte 7, .byte 8]) := by decide

example : Eff.exec (Effects.encrypt (loggedBlock id) loggedByte [7, 8, 9]) ([] : List (Event 2)) =
    (.ok (), [.block #v[7, 8], .byte 7, .byte 8, .block #v[9, 1], .byte 9, .byte 1]) := by decide

/-- A callback that panics on its second byte stops encryption there. -/
example : (Eff.exec (Effects.encrypt (fun b => onFst (stepMode ((ecb 2).encryptBlock ⟨.ok, .ok⟩) b))
    (fun b => onSnd (pushUpTo 1 b)) [7, 8, 9]) ((), ([] : List U8))) = (.error .index, ((), [7])) := by decide

/-! ## C110 -/

/-- C110: whatever the data iterator is (it may be infinite, may panic, may resume after `None`), the bytes obtained from
`encrypt(data)` are the bytes that pulling `data` directly would have given, each combined with the next key byte, and
pulling ends in the same way; exactly as many key bytes are consumed as bytes were obtained, so the next message continues
with the key byte after them. -/
theorem C110_lazy {δ : Type} (key : Nat → U8) (data : δ → R (Option U8) × δ) (n pos : Nat) (d : δ)
    (ds : List U8) (r : R Unit) (d' : δ) (h : pull (onSnd data) n ((), d) = (ds, r, ((), d'))) :
    pull (streamNext (onFst (keysFrom key)) (onSnd data)) n (pos, d) =
      (ds.mapIdx (fun i b => key (pos + i) ^^^ b), r, (pos + ds.length, d')) :=
  Effects.pull_keysFrom key data n pos d ds r d' h

/-- C110: nothing is consumed before the first byte is asked for. -/
theorem C110_unused {W : Type} (keys data : Eff W (Option U8)) (w : W) : pull (streamNext keys data) 0 w = ([], .ok (), w) := rfl

/-- C110: for every key iterator, finite or not: taking `n` bytes from `encrypt(data)` is encrypting the first `n` bytes of
`data`; the rest of `data` is left. -/
theorem C110_prefix {σ : Type} (next : KeyIter σ) (n : Nat) (s : σ) (data : List U8) :
    ∃ rest, pull (streamNext (onFst (keyIter next)) (onSnd listIter)) n (s, data) =
      ((streamEncrypt next s (data.take n)).yielded, (streamEncrypt next s (data.take n)).result,
        ((streamEncrypt next s (data.take n)).keys, rest)) ∧
      ((streamEncrypt next s (data.take n)).result = .ok () → rest = data.drop n) :=
  Effects.pull_list next n s data

/-- C110: when the data ends or panics, the key iterator is not asked. -/
theorem C110_end {σ δ : Type} (keys : σ → R (Option U8) × σ) (data : δ → R (Option U8) × δ) (s : σ) (d d' : δ)
    (h : data d = (.ok none, d') ∨ ∃ e, data d = (.error e, d')) :
    Eff.exec (streamNext (onFst keys) (onSnd data)) (s, d) = ((data d).1, (s, d')) := by
  rw [Effects.exec_streamNext]
  rcases h with h | ⟨e, h⟩ <;> simp [h]

/-- C110: a history of `encrypt` calls on one cipher whose iterators are dropped early is one encryption of the bytes that
were actually taken, end to end: abandoned iterators waste no key bytes. -/
theorem C110_history {σ : Type} (next : KeyIter σ) (history : List (List U8 × Nat)) (s : σ) :
    sessions next history s =
      ((streamEncrypt next s (history.flatMap fun q => q.1.take q.2)).yielded,
        (streamEncrypt next s (history.flatMap fun q => q.1.take q.2)).result,
        (streamEncrypt next s (history.flatMap fun q => q.1.take q.2)).keys) :=
  Effects.sessions_eq next history s

/-- C110, for RC4: any such history under a non-empty key yields the bytes taken, combined with the standard RC4 key stream
from its beginning, and never panics. -/
theorem C110_rc4 (key : List U8) (hkey : key ≠ []) : ∃ ks, Rc4.new key = .ok ks ∧ ∀ history : List (List U8 × Nat),
    ∃ ks', sessions Rc4.next history ks =
      ((history.flatMap fun q => q.1.take q.2).mapIdx
        (fun i b => BitVec.ofNat 8 (Spec.Rc4.stream (key.map BitVec.toNat) i) ^^^ b), .ok (), ks') := by
  obtain ⟨ks, h1, h2⟩ := C12_rc4_stream key hkey
  refine ⟨ks, h1, fun history => ?_⟩
  obtain ⟨s', h3, _⟩ := h2 (history.flatMap fun q => q.1.take q.2).length
  refine ⟨s', ?_⟩
  rw [C110_history, streamEncrypt_keys h3 _ (by simp)]
  refine Prod.ext ?_ rfl
  apply List.ext_getElem
  · simp
  · intro i h4 h5
    simp

/-- An infinite data iterator, and one that panics after two bytes. -/
example : pull (streamNext (onFst (keysFrom fun i => BitVec.ofNat 8 i)) (onSnd fun d : Nat => (.ok (some 16), d + 1))) 3 (5, 0) =
    ([21, 22, 23], .ok (), (8, 3)) := by decide

example : pull (streamNext (onFst (keysFrom fun i => BitVec.ofNat 8 i))
    (onSnd fun d : Nat => if d < 2 then (.ok (some 16), d + 1) else (.error .explicit, d))) 9 (5, 0) =
    ([21, 22], .error .explicit, (7, 2)) := by decide

example : sessions (fun ks : List U8 => (ks.head?, ks.tail)) [([16, 17, 18], 1), ([32, 33], 0), ([48], 7)] [1, 2, 3] =
    ([17, 50], .ok (), [3]) := by decide

/-- C110 applied: no data left, and the key stream is where it was. -/
example : Eff.exec (streamNext (onFst (keysFrom fun i => BitVec.ofNat 8 i)) (onSnd fun d : Nat => (.ok none, d + 1))) (5, 0) =
    (.ok none, (5, 1)) :=
  C110_end _ (fun d : Nat => (.ok none, d + 1)) 5 0 1 (.inl rfl)

end Verif.Props
