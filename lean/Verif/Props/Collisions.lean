import Verif.Props.Collide

/-! # C100: known collisions of MD4, MD5 and SHA-1

The bytes are written as hexadecimal numbers. -/

namespace Verif.Props
open Verif
open Collide
open _root_.Verif.Spec.Sha (sha1Hash pad)

/-- The 64 bytes of a number, most significant first. -/
def blk (n : Nat) : Vector U8 64 := Vector.ofFn fun i => BitVec.ofNat 8 (n >>> (8 * (63 - i.val)))

/-- Two messages of 64 bytes (Wang, Lai, Feng, Chen, Yu 2005). -/
def md4A : List U8 := natToBE 64 0x839c7a4d7a92cb5678a5d5b9eea5a7573c8a74deb366c3dc20a083b69f5d2a3bb3719dc69891e9f95e809fd7e8b23ba6318edd45e51fe39708bf9427e9c3e8b9
def md4B : List U8 := natToBE 64 0x839c7a4d7a92cbd678a5d529eea5a7573c8a74deb366c3dc20a083b69f5d2a3bb3719dc69891e9f95e809fd7e8b23ba6318edc45e51fe39708bf9427e9c3e8b9

/-- Two messages of 128 bytes (Wang, Yu 2005). -/
def md5A : List U8 := natToBE 128 0xd131dd02c5e6eec4693d9a0698aff95c2fcab58712467eab4004583eb8fb7f8955ad340609f4b30283e488832571415a085125e8f7cdc99fd91dbdf280373c5bd8823e3156348f5bae6dacd436c919c6dd53e2b487da03fd02396306d248cda0e99f33420f577ee8ce54b67080a80d1ec69821bcb6a8839396f9652b6ff72a70
def md5B : List U8 := natToBE 128 0xd131dd02c5e6eec4693d9a0698aff95c2fcab50712467eab4004583eb8fb7f8955ad340609f4b30283e4888325f1415a085125e8f7cdc99fd91dbd7280373c5bd8823e3156348f5bae6dacd436c919c6dd53e23487da03fd02396306d248cda0e99f33420f577ee8ce54b67080280d1ec69821bcb6a8839396f965ab6ff72a70

/-- The first 192 bytes of two PDF files with the same SHA-1 (Stevens, Bursztein, Karpman, Albertini, Markov 2017), in
blocks of 64. -/
def sha1P : List (Vector U8 64) := [blk 0x255044462d312e330a25e2e3cfd30a0a0a312030206f626a0a3c3c2f57696474682032203020522f4865696768742033203020522f547970652034203020522f,
    blk 0x537562747970652035203020522f46696c7465722036203020522f436f6c6f7253706163652037203020522f4c656e6774682038203020522f42697473506572,
    blk 0x436f6d706f6e656e7420383e3e0a73747265616d0affd8fffe00245348412d3120697320646561642121212121852fec092339759c39b1a1c63c4c97e1fffe01]
/-- The next 128 bytes of the two files. -/
def sha1X : List (Vector U8 64) := [blk 0x7f46dc93a6b67e013b029aaa1db2560b45ca67d688c7f84b8c4c791fe02b3df614f86db1690901c56b45c1530afedfb76038e972722fe7ad728f0e4904e046c2,
    blk 0x30570fe9d41398abe12ef5bc942be33542a4802d98b5d70f2a332ec37fac3514e74ddc0f2cc1a874cd0c78305a21566461309789606bd0bf3f98cda8044629a1]
def sha1Y : List (Vector U8 64) := [blk 0x7346dc9166b67e118f029ab621b2560ff9ca67cca8c7f85ba84c79030c2b3de218f86db3a90901d5df45c14f26fedfb3dc38e96ac22fe7bd728f0e45bce046d2,
    blk 0x3c570feb141398bb552ef5a0a82be331fea48037b8b5d71f0e332edf93ac3500eb4ddc0decc1a864790c782c76215660dd309791d06bd0af3f98cda4bc4629b1]
/-- The first 320 bytes of the files. -/
def sha1A : List U8 := (sha1P ++ sha1X).flatMap Vector.toList
def sha1B : List U8 := (sha1P ++ sha1Y).flatMap Vector.toList

/-- C100: MD4 does not tell the two messages apart, whatever follows them. -/
theorem C100_md4 (x : List U8) : md4A ++ x ≠ md4B ++ x ∧ Model.Md4.hash (md4A ++ x) = Model.Md4.hash (md4B ++ x) := by
  refine ⟨fun h => absurd (List.append_cancel_right h) (by decide +kernel), ?_⟩
  have h : md4A.foldlM (Model.Md.Hasher.consume fun x s => .ok (Model.Md4.process x s)) Model.Md.Hasher.new =
      md4B.foldlM (Model.Md.Hasher.consume fun x s => .ok (Model.Md4.process x s)) Model.Md.Hasher.new := by decide +kernel
  unfold Model.Md4.hash Model.Md.hash
  rw [List.foldlM_append, List.foldlM_append, h]

/-- C100: MD5 does not tell the two messages apart, whatever follows them. -/
theorem C100_md5 (x : List U8) : md5A ++ x ≠ md5B ++ x ∧ Model.Md5.hash (md5A ++ x) = Model.Md5.hash (md5B ++ x) := by
  refine ⟨fun h => absurd (List.append_cancel_right h) (by decide +kernel), ?_⟩
  have h : md5A.foldlM (Model.Md.Hasher.consume Model.Md5.process) Model.Md.Hasher.new =
      md5B.foldlM (Model.Md.Hasher.consume Model.Md5.process) Model.Md.Hasher.new := by decide +kernel
  unfold Model.Md5.hash Model.Md.hash
  rw [List.foldlM_append, List.foldlM_append, h]

theorem sha1_same_prefix (a b x : List U8) (hl : a.length = b.length) (hz : a.length % 64 = 0)
    (h : (chunksExact 64 a).foldl Model.Sha.sha1Chunk Model.Sha.sha1Init =
      (chunksExact 64 b).foldl Model.Sha.sha1Chunk Model.Sha.sha1Init) :
    Model.Sha.sha1 (a ++ x) = Model.Sha.sha1 (b ++ x) := by
  obtain ⟨bx, tx, ex, htx, -⟩ := exists_chunks (n := 64) (by omega) x
  have htl : tx.length < 64 := by rw [htx]; exact Nat.mod_lt _ (by omega)
  have split : ∀ a : List U8, a.length % 64 = 0 → chunksExact 64 (a ++ x) = chunksExact 64 a ++ bx ∧
      chunksRem 64 (a ++ x) = tx := by
    intro a hz
    obtain ⟨ba, ta, ea, hta, -⟩ := exists_chunks (n := 64) (by omega) a
    rw [hz] at hta
    rw [List.length_eq_zero_iff.1 hta] at ea
    have e1 : chunksExact 64 a = ba := by rw [ea]; exact chunksExact_eq ba [] (by simp)
    have e2 : a ++ x = (ba ++ bx).flatMap Vector.toList ++ tx := by
      rw [ea, ex, List.flatMap_append]; simp
    rw [e1, e2]
    exact ⟨chunksExact_eq _ tx htl, chunksRem_eq _ tx htl⟩
  obtain ⟨h1, h2⟩ := split a hz
  obtain ⟨h3, h4⟩ := split b (by omega)
  unfold Model.Sha.sha1
  rw [h1, h2, h3, h4, List.foldl_append, List.foldl_append, h, List.length_append, List.length_append, hl]

theorem step_p0 : Model.Sha.sha1Chunk #v[0x67452301#32, 0xefcdab89#32, 0x98badcfe#32, 0x10325476#32, 0xc3d2e1f0#32]
    (blk 0x255044462d312e330a25e2e3cfd30a0a0a312030206f626a0a3c3c2f57696474682032203020522f4865696768742033203020522f547970652034203020522f) =
    #v[0x86d9d255#32, 0xe2214ecd#32, 0x4cca107e#32, 0xc732990e#32, 0x044af3b4#32] := by decide +kernel

theorem step_p1 : Model.Sha.sha1Chunk #v[0x86d9d255#32, 0xe2214ecd#32, 0x4cca107e#32, 0xc732990e#32, 0x044af3b4#32]
    (blk 0x537562747970652035203020522f46696c7465722036203020522f436f6c6f7253706163652037203020522f4c656e6774682038203020522f42697473506572) =
    #v[0x453012e6#32, 0x38524c1f#32, 0xeef312bd#32, 0x2561990c#32, 0x22b0ae50#32] := by decide +kernel

theorem step_p2 : Model.Sha.sha1Chunk #v[0x453012e6#32, 0x38524c1f#32, 0xeef312bd#32, 0x2561990c#32, 0x22b0ae50#32]
    (blk 0x436f6d706f6e656e7420383e3e0a73747265616d0affd8fffe00245348412d3120697320646561642121212121852fec092339759c39b1a1c63c4c97e1fffe01) =
    #v[0x4ea96269#32, 0x7c876e26#32, 0x74d107f0#32, 0xfec67984#32, 0x14f5bf45#32] := by decide +kernel

theorem step_x0 : Model.Sha.sha1Chunk #v[0x4ea96269#32, 0x7c876e26#32, 0x74d107f0#32, 0xfec67984#32, 0x14f5bf45#32]
    (blk 0x7f46dc93a6b67e013b029aaa1db2560b45ca67d688c7f84b8c4c791fe02b3df614f86db1690901c56b45c1530afedfb76038e972722fe7ad728f0e4904e046c2) =
    #v[0x8d64d617#32, 0xffed5352#32, 0xebc85915#32, 0x5ec7eb34#32, 0xf38a5a7b#32] := by decide +kernel

theorem step_x1 : Model.Sha.sha1Chunk #v[0x8d64d617#32, 0xffed5352#32, 0xebc85915#32, 0x5ec7eb34#32, 0xf38a5a7b#32]
    (blk 0x30570fe9d41398abe12ef5bc942be33542a4802d98b5d70f2a332ec37fac3514e74ddc0f2cc1a874cd0c78305a21566461309789606bd0bf3f98cda8044629a1) =
    #v[0x1eacb25e#32, 0xd5970d10#32, 0xf1736963#32, 0x5771bc3a#32, 0x17b48ac5#32] := by decide +kernel

theorem step_y0 : Model.Sha.sha1Chunk #v[0x4ea96269#32, 0x7c876e26#32, 0x74d107f0#32, 0xfec67984#32, 0x14f5bf45#32]
    (blk 0x7346dc9166b67e118f029ab621b2560ff9ca67cca8c7f85ba84c79030c2b3de218f86db3a90901d5df45c14f26fedfb3dc38e96ac22fe7bd728f0e45bce046d2) =
    #v[0x8d64c821#32, 0xffed52e2#32, 0xebc85915#32, 0x5ec7eb36#32, 0x738a5a7b#32] := by decide +kernel

theorem step_y1 : Model.Sha.sha1Chunk #v[0x8d64c821#32, 0xffed52e2#32, 0xebc85915#32, 0x5ec7eb36#32, 0x738a5a7b#32]
    (blk 0x3c570feb141398bb552ef5a0a82be331fea48037b8b5d71f0e332edf93ac3500eb4ddc0decc1a864790c782c76215660dd309791d06bd0af3f98cda4bc4629b1) =
    #v[0x1eacb25e#32, 0xd5970d10#32, 0xf1736963#32, 0x5771bc3a#32, 0x17b48ac5#32] := by decide +kernel

theorem sha1A_state : (sha1P ++ sha1X).foldl Model.Sha.sha1Chunk Model.Sha.sha1Init =
    #v[0x1eacb25e#32, 0xd5970d10#32, 0xf1736963#32, 0x5771bc3a#32, 0x17b48ac5#32] := by
  unfold sha1P sha1X
  simp only [List.cons_append, List.nil_append, List.foldl_cons, List.foldl_nil]
  rw [Model.Sha.sha1Init, step_p0, step_p1, step_p2, step_x0, step_x1]

theorem sha1B_state : (sha1P ++ sha1Y).foldl Model.Sha.sha1Chunk Model.Sha.sha1Init =
    #v[0x1eacb25e#32, 0xd5970d10#32, 0xf1736963#32, 0x5771bc3a#32, 0x17b48ac5#32] := by
  unfold sha1P sha1Y
  simp only [List.cons_append, List.nil_append, List.foldl_cons, List.foldl_nil]
  rw [Model.Sha.sha1Init, step_p0, step_p1, step_p2, step_y0, step_y1]

theorem length_sha1A : sha1A.length = 320 := by rw [sha1A, length_flatMap_toList]; rfl
theorem length_sha1B : sha1B.length = 320 := by rw [sha1B, length_flatMap_toList]; rfl

theorem chunks_of_blocks (bs : List (Vector U8 64)) : chunksExact 64 (bs.flatMap Vector.toList) = bs := by
  have := chunksExact_eq bs [] (by simp)
  rwa [List.append_nil] at this

/-- C100: SHA-1 does not tell the two files apart, whatever follows. -/
theorem C100_sha1 (x : List U8) : sha1A ++ x ≠ sha1B ++ x ∧ Model.Sha.sha1 (sha1A ++ x) = Model.Sha.sha1 (sha1B ++ x) := by
  refine ⟨fun h => absurd (List.append_cancel_right h) (fun h => ?_),
    sha1_same_prefix _ _ x (by rw [length_sha1A, length_sha1B]) (by rw [length_sha1A]) ?_⟩
  · have := congrArg (chunksExact 64) h
    rw [sha1A, sha1B, chunks_of_blocks, chunks_of_blocks] at this
    exact absurd (List.append_cancel_left this) (by decide +kernel)
  · rw [sha1A, sha1B, chunks_of_blocks, chunks_of_blocks, sha1A_state, sha1B_state]

/-- The hypotheses of C99 are met: these are collisions of the hash functions, so there is a collision among the blocks. -/
example : StepCollision 64 compress1 sha1Hash (pad 64 8 sha1A) (pad 64 8 sha1B) :=
  C99_sha1 _ _ (by rw [length_sha1A]; omega) (by rw [length_sha1B]; omega) (by simpa using (C100_sha1 []).1) (by simpa using (C100_sha1 []).2)
example : StepCollision 64 (compressMd Spec.Md.md5New 64) (Spec.Md.buffer Spec.Md.md5New 64) (Spec.Md.pad md5A)
    (Spec.Md.pad md5B) :=
  C99_md5 _ _ (by decide +kernel) (by decide +kernel) (by simpa using (C100_md5 []).1) (by simpa using (C100_md5 []).2)
example : StepCollision 64 (compressMd Spec.Md.md4New 48) (Spec.Md.buffer Spec.Md.md4New 48) (Spec.Md.pad md4A)
    (Spec.Md.pad md4B) :=
  C99_md4 _ _ (by decide +kernel) (by decide +kernel) (by simpa using (C100_md4 []).1) (by simpa using (C100_md4 []).2)

/-- C90 for the messages that collide: also behind their padding any suffix gives the same digest. (For SHA-256 and SHA-512
no two different messages are known to which this applies.) -/
example (x : List U8) (hx : x.length < 1000) :
    Model.Md4.hash (Spec.Md.pad md4A ++ x) = Model.Md4.hash (Spec.Md.pad md4B ++ x) := by
  have h := (C100_md4 []).2
  rw [List.append_nil, List.append_nil] at h
  refine C90_collisions_extend_md4 md4A md4B x (by decide +kernel) ?_ h
  rw [List.length_append, show (Spec.Md.pad md4A).length = 128 by decide +kernel]
  omega
example (x : List U8) (hx : x.length < 1000) :
    Model.Md5.hash (Spec.Md.pad md5A ++ x) = Model.Md5.hash (Spec.Md.pad md5B ++ x) := by
  have h := (C100_md5 []).2
  rw [List.append_nil, List.append_nil] at h
  refine C90_collisions_extend_md5 md5A md5B x (by decide +kernel) ?_ h
  rw [List.length_append, show (Spec.Md.pad md5A).length = 192 by decide +kernel]
  omega
example (x : List U8) (hx : x.length < 1000) :
    Model.Sha.sha1 (pad 64 8 sha1A ++ x) = Model.Sha.sha1 (pad 64 8 sha1B ++ x) := by
  have h := (C100_sha1 []).2
  rw [List.append_nil, List.append_nil] at h
  refine C90_collisions_extend_sha1 sha1A sha1B x (by decide +kernel) ?_ h
  rw [List.length_append, show (pad 64 8 sha1A).length = 384 by decide +kernel]
  omega

end Verif.Props
