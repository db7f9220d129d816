import Verif.Proof.ShaConv

/-! # C25–C31: SHA-1, SHA-2 and hash values -/

namespace Verif.Props
open Verif
open Verif.Model.Sha (HashValue sha1Padding sha2PaddingBig u32sToBytes bytesToU32s u64sToBytes bytesToU64s fromHex)

/-! ## C25–C27 -/

/-- C25: SHA-1. -/
theorem C25_sha1 (m : List U8) (hm : m.length < 2 ^ 61) :
    ∃ d : HashValue 20, Model.Sha.sha1 m = .ok d ∧ d.toList = Spec.Sha.sha1 m :=
  Model.Sha.sha1_eq m hm

/-- C25: the bound is exact: longer messages panic (in a build with overflow checks). -/
theorem C25_sha1_too_long (m : List U8) (hm : 2 ^ 61 ≤ m.length) : Model.Sha.sha1 m = .error .overflow := by
  obtain ⟨bs, tail, e, ht, -⟩ := exists_chunks (n := 64) (by omega) m
  have htl : tail.length < 64 := by rw [ht]; exact Nat.mod_lt _ (by omega)
  have hr : chunksRem 64 m = tail := by rw [e]; exact chunksRem_eq bs tail htl
  unfold Model.Sha.sha1
  rw [hr, Model.Sha.sha1Padding_overflow tail _ htl hm]
  rfl

/-- The message "abc" meets the hypothesis; its digest is the one in FIPS 180. -/
example : (Model.Sha.sha1 (Spec.Sha.ascii "abc")).map Vector.toList = .ok
    [0xa9#8, 0x99#8, 0x3e#8, 0x36#8, 0x47#8, 0x06#8, 0x81#8, 0x6a#8, 0xba#8, 0x3e#8, 0x25#8, 0x71#8, 0x78#8, 0x50#8,
     0xc2#8, 0x6c#8, 0x9c#8, 0xd0#8, 0xd8#8, 0x9d#8] := by decide +kernel
/-- A message of 60 bytes needs two blocks. -/
example : (List.replicate 60 7#8).length < 2 ^ 61 ∧ (Spec.Sha.pad 64 8 (List.replicate 60 7#8)).length = 128 := by
  decide +kernel

/-- C26: SHA-256. -/
theorem C26_sha256 (m : List U8) (hm : m.length < 2 ^ 61) :
    ∃ d : HashValue 32, Model.Sha.sha256 m = .ok d ∧ d.toList = Spec.Sha.sha256 m :=
  Model.Sha.sha256_eq m hm

/-- C26: SHA-224. -/
theorem C26_sha224 (m : List U8) (hm : m.length < 2 ^ 61) :
    ∃ d : HashValue 28, Model.Sha.sha224 m = .ok d ∧ d.toList = Spec.Sha.sha224 m :=
  Model.Sha.sha224_eq m hm

/-- C26: the bound is exact. -/
theorem C26_too_long (m : List U8) (hm : 2 ^ 61 ≤ m.length) :
    Model.Sha.sha256 m = .error .overflow ∧ Model.Sha.sha224 m = .error .overflow := by
  obtain ⟨bs, tail, e, ht, -⟩ := exists_chunks (n := 64) (by omega) m
  have htl : tail.length < 64 := by rw [ht]; exact Nat.mod_lt _ (by omega)
  have hr : chunksRem 64 m = tail := by rw [e]; exact chunksRem_eq bs tail htl
  have hc : ∀ init, Model.Sha.sha256Core init m = .error .overflow := by
    intro init
    unfold Model.Sha.sha256Core
    rw [hr, Model.Sha.sha1Padding_overflow tail _ htl hm]
    rfl
  constructor
  · unfold Model.Sha.sha256; rw [hc]; rfl
  · unfold Model.Sha.sha224; rw [hc]; rfl

example : (Model.Sha.sha256 (Spec.Sha.ascii "abc")).map (fun d => d.toList.take 8) = .ok
    [0xba#8, 0x78#8, 0x16#8, 0xbf#8, 0x8f#8, 0x01#8, 0xcf#8, 0xea#8] := by decide +kernel
example : (Model.Sha.sha224 (Spec.Sha.ascii "abc")).map (fun d => d.toList.take 8) = .ok
    [0x23#8, 0x09#8, 0x7d#8, 0x22#8, 0x34#8, 0x05#8, 0xd8#8, 0x22#8] := by decide +kernel
/-- The real-number definition of the constants, at two places: ∛2 = 1.(0x428a2f98)…, √2 = 1.(0x6a09e667)… -/
example : Spec.Sha.family32.K 0 = 0x428a2f98#32 ∧ Spec.Sha.init256.a = 0x6a09e667#32 :=
  ⟨(Model.Sha.roundConstants_eq 0 (by omega)).symm, (Model.Sha.init256_eq 0 (by omega)).symm⟩

/-- C27: SHA-512. The hypothesis holds for every message in a 64-bit address space. -/
theorem C27_sha512 (m : List U8) (hm : m.length < 2 ^ 64) :
    ∃ d : HashValue 64, Model.Sha.sha512 m = .ok d ∧ d.toList = Spec.Sha.sha512 m :=
  Model.Sha.sha512_eq m (by omega)

/-- C27: SHA-384. -/
theorem C27_sha384 (m : List U8) (hm : m.length < 2 ^ 64) :
    ∃ d : HashValue 48, Model.Sha.sha384 m = .ok d ∧ d.toList = Spec.Sha.sha384 m :=
  Model.Sha.sha384_eq m (by omega)

example : (Model.Sha.sha512 (Spec.Sha.ascii "abc")).map (fun d => d.toList.take 8) = .ok
    [0xdd#8, 0xaf#8, 0x35#8, 0xa1#8, 0x93#8, 0x61#8, 0x7a#8, 0xba#8] := by decide +kernel
example : (Model.Sha.sha384 (Spec.Sha.ascii "abc")).map (fun d => d.toList.take 8) = .ok
    [0xcb#8, 0x00#8, 0x75#8, 0x3f#8, 0x45#8, 0xa3#8, 0x5e#8, 0x8b#8] := by decide +kernel
example : (List.replicate 1000 7#8).length < 2 ^ 64 := by decide +kernel

/-! ## C28 -/

theorem pad_inj {N L : Nat} {m m' : List U8} (hL : 8 * m.length < 256 ^ L) (hL' : 8 * m'.length < 256 ^ L)
    (h : Spec.Sha.pad N L m = Spec.Sha.pad N L m') : m = m' := by
  unfold Spec.Sha.pad at h
  obtain ⟨h1, h2⟩ := List.append_inj' h (by rw [length_natToBE, length_natToBE])
  have := congrArg beVal h2
  rw [beVal_natToBE, beVal_natToBE, Nat.mod_eq_of_lt hL, Nat.mod_eq_of_lt hL'] at this
  exact (List.append_inj h1 (by omega)).1

/-- C28: the 64-byte blocks that SHA-1, SHA-224 and SHA-256 compress determine the message. -/
theorem C28_blocks_determine_message (m m' : List U8) (hm : m.length < 2 ^ 61) (hm' : m'.length < 2 ^ 61)
    (last last' : Vector U8 64) (extra extra' : Option (Vector U8 64))
    (hp : sha1Padding (chunksRem 64 m) m.length = .ok (last, extra))
    (hp' : sha1Padding (chunksRem 64 m') m'.length = .ok (last', extra'))
    (h : chunksExact 64 m ++ last :: extra.toList = chunksExact 64 m' ++ last' :: extra'.toList) : m = m' := by
  obtain ⟨l, e, h1, h2⟩ := Model.Sha.blocks64 m hm
  obtain ⟨l', e', h1', h2'⟩ := Model.Sha.blocks64 m' hm'
  rw [hp] at h1; rw [hp'] at h1'
  cases h1; cases h1'
  exact pad_inj (N := 64) (L := 8) (by omega) (by omega) (by rw [← h2, ← h2', h])

/-- C28: the padding adds at least 9 and at most 72 bytes. -/
theorem C28_padding_length (m : List U8) (hm : m.length < 2 ^ 61) : ∃ last extra,
    sha1Padding (chunksRem 64 m) m.length = .ok (last, extra) ∧
    m.length + 9 ≤ 64 * (chunksExact 64 m ++ last :: extra.toList).length ∧
    64 * (chunksExact 64 m ++ last :: extra.toList).length ≤ m.length + 72 := by
  obtain ⟨l, e, h1, h2⟩ := Model.Sha.blocks64 m hm
  refine ⟨l, e, h1, ?_⟩
  have := congrArg List.length h2
  rw [length_flatMap_toList, Spec.Sha.pad] at this
  simp only [List.length_append, List.length_cons, List.length_replicate, length_natToBE] at this ⊢
  omega

/-- C28 for the 128-byte blocks of SHA-384 and SHA-512. -/
theorem C28_blocks_determine_message_big (m m' : List U8) (hm : m.length < 2 ^ 64) (hm' : m'.length < 2 ^ 64)
    (last last' : Vector U8 128) (extra extra' : Option (Vector U8 128))
    (hp : sha2PaddingBig (chunksRem 128 m) m.length = .ok (last, extra))
    (hp' : sha2PaddingBig (chunksRem 128 m') m'.length = .ok (last', extra'))
    (h : chunksExact 128 m ++ last :: extra.toList = chunksExact 128 m' ++ last' :: extra'.toList) : m = m' := by
  obtain ⟨l, e, h1, h2⟩ := Model.Sha.blocks128 m (by omega)
  obtain ⟨l', e', h1', h2'⟩ := Model.Sha.blocks128 m' (by omega)
  rw [hp] at h1; rw [hp'] at h1'
  cases h1; cases h1'
  exact pad_inj (N := 128) (L := 16) (by omega) (by omega) (by rw [← h2, ← h2', h])

/-- C28 for the 128-byte blocks: between 17 and 144 bytes are added. -/
theorem C28_padding_length_big (m : List U8) (hm : m.length < 2 ^ 64) : ∃ last extra,
    sha2PaddingBig (chunksRem 128 m) m.length = .ok (last, extra) ∧
    m.length + 17 ≤ 128 * (chunksExact 128 m ++ last :: extra.toList).length ∧
    128 * (chunksExact 128 m ++ last :: extra.toList).length ≤ m.length + 144 := by
  obtain ⟨l, e, h1, h2⟩ := Model.Sha.blocks128 m (by omega)
  refine ⟨l, e, h1, ?_⟩
  have := congrArg List.length h2
  rw [length_flatMap_toList, Spec.Sha.pad] at this
  simp only [List.length_append, List.length_cons, List.length_replicate, length_natToBE] at this ⊢
  omega

/-- Both ends of the range occur: 55 bytes get 9, 56 bytes get 72. -/
example : ((sha1Padding (List.replicate 55 1#8) 55).map fun x => x.2.isSome) = .ok false ∧
    ((sha1Padding (List.replicate 56 1#8) 56).map fun x => x.2.isSome) = .ok true := by decide +kernel
example : ((sha2PaddingBig (List.replicate 111 1#8) 111).map fun x => x.2.isSome) = .ok false ∧
    ((sha2PaddingBig (List.replicate 112 1#8) 112).map fun x => x.2.isSome) = .ok true := by decide +kernel

/-! ## C29, C30 -/

/-- C29: words → hash value → words, and the bytes are the big-endian words. `W = 5, 7, 8` are the three types. -/
theorem C29_words_roundtrip {W : Nat} (ws : Vector U32 W) : ∃ v : HashValue (4 * W),
    u32sToBytes (4 * W) ws = .ok v ∧ v.toList = Spec.Sha.bytes ws.toList ∧ bytesToU32s W v = .ok ws :=
  Model.Sha.roundtrip_words ws

/-- C29: hash value → words → hash value. -/
theorem C29_bytes_roundtrip {W : Nat} (v : HashValue (4 * W)) : ∃ ws : Vector U32 W,
    bytesToU32s W v = .ok ws ∧ u32sToBytes (4 * W) ws = .ok v :=
  Model.Sha.roundtrip_bytes v

example : (u32sToBytes 20 #v[0x01020304#32, 5#32, 6#32, 7#32, 0xfffefdfc#32]).map Vector.toList = .ok
    [1#8, 2#8, 3#8, 4#8, 0#8, 0#8, 0#8, 5#8, 0#8, 0#8, 0#8, 6#8, 0#8, 0#8, 0#8, 7#8, 0xff#8, 0xfe#8, 0xfd#8, 0xfc#8] := by
  decide +kernel

/-- C30 does not hold: turning a Hash384 or a Hash512 into 64-bit words always panics. -/
theorem C30_false_always_panics : (∀ v : HashValue 48, bytesToU64s 6 v = .error .unwrap) ∧
    (∀ v : HashValue 64, bytesToU64s 8 v = .error .unwrap) :=
  ⟨fun v => Model.Sha.bytesToU64s_panics (by omega) v, fun v => Model.Sha.bytesToU64s_panics (by omega) v⟩

/-- C30, the part that holds: 64-bit words become their big-endian bytes in order, and different words give different
hash values. Missing: the way back, which panics. -/
theorem C30_words_to_bytes_partial {W : Nat} (ws : Vector U64 W) : ∃ v : HashValue (8 * W),
    u64sToBytes (8 * W) ws = .ok v ∧ v.toList = Spec.Sha.bytes ws.toList ∧
    ∀ ws' : Vector U64 W, u64sToBytes (8 * W) ws' = .ok v → ws' = ws := by
  obtain ⟨v, hv, ev⟩ := Model.Sha.u64sToBytes_ok (B := 8 * W) rfl ws
  refine ⟨v, hv, ev, fun ws' h => ?_⟩
  obtain ⟨v', hv', ev'⟩ := Model.Sha.u64sToBytes_ok (B := 8 * W) rfl ws'
  rw [h] at hv'
  cases hv'
  exact Vector.toList_inj.1 (Model.Sha.bytes_inj (by omega) (by simp) (ev'.symm.trans ev))

example : (u64sToBytes 16 #v[0x0102030405060708#64, 9#64]).map Vector.toList = .ok
    [1#8, 2#8, 3#8, 4#8, 5#8, 6#8, 7#8, 8#8, 0#8, 0#8, 0#8, 0#8, 0#8, 0#8, 0#8, 9#8] := by decide +kernel

/-! ## C31 -/

/-- C31: `from_hex` accepts exactly the spellings of a value. -/
theorem C31_from_hex_iff {N : Nat} (s : List U8) (v : HashValue N) :
    fromHex N s = .ok (.ok v) ↔ Spec.Sha.Spells s v :=
  Model.Sha.fromHex_iff s v

/-- C31: `from_hex` never panics. -/
theorem C31_from_hex_never_panics {N : Nat} (s : List U8) : ∃ r, fromHex N s = .ok r :=
  Model.Sha.fromHex_total s

/-- Lower and upper case, a wrong digit, an odd length and a wrong length. -/
example : fromHex 2 (Spec.Sha.ascii "01fF") = .ok (.ok #v[1#8, 255#8]) ∧
    fromHex 2 (Spec.Sha.ascii "01g0") = .ok (.error (.invalidHexCharacter 0x67#8 2)) ∧
    fromHex 2 (Spec.Sha.ascii "01f") = .ok (.error .oddLength) ∧
    fromHex 2 (Spec.Sha.ascii "01") = .ok (.error .invalidStringLength) := by decide +kernel

/-- C26 and C28 applied. -/
example : ∃ d : HashValue 32, Model.Sha.sha256 (List.replicate 4000000 7#8) = .ok d ∧
    d.toList = Spec.Sha.sha256 (List.replicate 4000000 7#8) := C26_sha256 _ (by rw [List.length_replicate]; norm_num)
example : ∃ last extra, sha1Padding (chunksRem 64 (List.replicate 60 7#8)) 60 = .ok (last, extra) ∧
    60 + 9 ≤ 64 * (chunksExact 64 (List.replicate 60 7#8) ++ last :: extra.toList).length ∧
    64 * (chunksExact 64 (List.replicate 60 7#8) ++ last :: extra.toList).length ≤ 60 + 72 :=
  C28_padding_length (List.replicate 60 7#8) (by rw [List.length_replicate]; norm_num)
example (last last' : Vector U8 64) (hp : sha1Padding (chunksRem 64 [1#8, 2#8]) [1#8, 2#8].length = .ok (last, none))
    (hp' : sha1Padding (chunksRem 64 [1#8]) [1#8].length = .ok (last', none)) : last ≠ last' := by
  intro h
  have e : chunksExact 64 [1#8, 2#8] = [] ∧ chunksExact 64 [1#8] = [] := by decide +kernel
  have := C28_blocks_determine_message [1#8, 2#8] [1#8] (by decide) (by decide) last last' none none hp hp' (by rw [h, e.1, e.2])
  nomatch this

end Verif.Props
