import Verif.Model.HashIter
import Verif.Spec.HashIter
import Verif.Proof.Effects
import Verif.Props.Md
import Verif.Props.Release
import Verif.Spec.Effects

/-! # C141: md2, md4 and md5 of an arbitrary iterator -/

namespace Verif.Props
open Verif Verif.Model Verif.Model.Effects
open _root_.Verif.Model.HashIter (feed)
open _root_.Verif.Spec.HashIter (Yields Gives Ends NeverEnds)

/-! ## Proofs -/

theorem feed_yields {W H : Type} {next : Eff W (Option U8)} {consume : H → U8 → R H} {w w' : W} {bytes : List U8} {r : R Unit}
    (hy : Yields next w bytes r w') {h h' : H} (hf : bytes.foldlM consume h = .ok h') (fuel : Nat) (hfuel : bytes.length < fuel) :
    (feed next consume fuel h).exec w = (r.map fun _ => h', w') := by
  induction hy generalizing h fuel with
  | none hn =>
    cases fuel with
    | zero => simp at hfuel
    | succ fuel =>
      simp only [List.foldlM_nil, pure, Except.pure, Except.ok.injEq] at hf
      subst hf
      simp only [feed, exec_bind, hn]
      rfl
  | panic hn =>
    cases fuel with
    | zero => simp at hfuel
    | succ fuel => simp only [feed, exec_bind, hn]; rfl
  | item hn _ ih =>
    cases fuel with
    | zero => simp at hfuel
    | succ fuel =>
      rename_i b bytes r _
      simp only [List.foldlM_cons, bind, Except.bind] at hf
      cases hc : consume h b with
      | error e => rw [hc] at hf; cases hf
      | ok h1 =>
        rw [hc] at hf
        simp only [feed, exec_bind, hn, exec_ofR, hc]
        exact ih hf fuel (by simpa using hfuel)

theorem feed_gives_error {W H : Type} {next : Eff W (Option U8)} {consume : H → U8 → R H} {w w' : W} {bytes : List U8}
    (hy : Gives next w bytes w') {h : H} {e : Panic} (hne : bytes ≠ []) (hf : ∃ h', bytes.dropLast.foldlM consume h = .ok h')
    (hl : bytes.foldlM consume h = .error e) (fuel : Nat) (hfuel : bytes.length ≤ fuel) :
    (feed next consume fuel h).exec w = (.error e, w') := by
  induction hy generalizing h fuel with
  | start => exact absurd rfl hne
  | item hn hg ih =>
    rename_i w0 w1 w2 b bytes
    cases fuel with
    | zero => simp at hfuel
    | succ fuel =>
      simp only [List.foldlM_cons, bind, Except.bind] at hl
      simp only [feed, exec_bind, hn, exec_ofR]
      cases hc : consume h b with
      | error e' =>
        rw [hc] at hl
        cases hl
        cases hg with
        | start => rfl
        | item hn' hg' =>
          obtain ⟨h', hf⟩ := hf
          rw [List.dropLast_cons_of_ne_nil (by simp)] at hf
          simp only [List.foldlM_cons, bind, Except.bind, hc] at hf
          cases hf
      | ok h1 =>
        rw [hc] at hl
        simp only
        cases hg with
        | start => cases hl
        | item hn' hg' =>
          refine ih (by simp) ?_ hl fuel (by simpa using hfuel)
          obtain ⟨h', hf⟩ := hf
          rw [List.dropLast_cons_of_ne_nil (by simp)] at hf
          simp only [List.foldlM_cons, bind, Except.bind, hc] at hf
          exact ⟨h', hf⟩

theorem feed_endless {W H : Type} {next : Eff W (Option U8)} {consume : H → U8 → R H} {w w' : W} {bytes : List U8}
    (hy : Gives next w bytes w') {h h' : H} (hf : bytes.foldlM consume h = .ok h') :
    ((feed next consume bytes.length h).exec w).1 = .error .diverged := by
  induction hy generalizing h with
  | start => rfl
  | item hn _ ih =>
    rename_i b bytes _
    simp only [List.foldlM_cons, bind, Except.bind] at hf
    cases hc : consume h b with
    | error e => rw [hc] at hf; cases hf
    | ok h1 =>
      rw [hc] at hf
      simp only [List.length_cons, feed, exec_bind, hn, exec_ofR, hc]
      exact ih hf

theorem md2_consume_ok (h : Md2.Hasher) (hl : h.chunk.length < 16) (b : U8) :
    ∃ h', h.consume b = .ok h' ∧ h'.chunk.length = (h.chunk.length + 1) % 16 := by
  unfold Md2.Hasher.consume
  simp only [List.length_append, List.length_singleton]
  by_cases h16 : h.chunk.length + 1 = 16
  · rw [if_pos h16]
    unfold Md2.Hasher.processChunk
    simp only [List.length_append, List.length_singleton, h16, Nat.le_refl, dif_pos]
    exact ⟨_, rfl, rfl⟩
  · rw [if_neg h16]
    refine ⟨_, rfl, ?_⟩
    simp only [List.length_append, List.length_singleton]
    rw [Nat.mod_eq_of_lt (by omega)]

theorem md2_feed_ok (bytes : List U8) (h : Md2.Hasher) (hl : h.chunk.length < 16) :
    ∃ h', bytes.foldlM Md2.Hasher.consume h = .ok h' ∧ h'.chunk.length = (h.chunk.length + bytes.length) % 16 := by
  induction bytes generalizing h with
  | nil => exact ⟨h, rfl, by rw [List.length_nil, Nat.add_zero, Nat.mod_eq_of_lt hl]⟩
  | cons b bytes ih =>
    obtain ⟨h1, e1, l1⟩ := md2_consume_ok h hl b
    obtain ⟨h2, e2, l2⟩ := ih h1 (by omega)
    refine ⟨h2, by simp only [List.foldlM_cons, bind, Except.bind, e1, e2], ?_⟩
    rw [l2, l1, List.length_cons]
    omega

theorem md_process_ok {process : Vector U32 16 → Md.Abcd → R Md.Abcd} (hP : ∀ x s, ∃ s', process x s = .ok s') (h : Md.Hasher)
    (hl : h.unprocessed.length = 64) : ∃ s, h.processBlock process = .ok { h with unprocessed := [], s := s } := by
  unfold Md.Hasher.processBlock Md.blockFromSlice
  rw [dif_pos (by omega)]
  simp only [bind, Except.bind]
  obtain ⟨s', hs⟩ := hP (Vector.ofFn fun j : Fin 16 => leU32 h.unprocessed[j.val * 4] h.unprocessed[j.val * 4 + 1]
    h.unprocessed[j.val * 4 + 2] h.unprocessed[j.val * 4 + 3]) h.s
  rw [hs]
  exact ⟨_, rfl⟩

theorem md_consume_ok {process : Vector U32 16 → Md.Abcd → R Md.Abcd} (hP : ∀ x s, ∃ s', process x s = .ok s') (h : Md.Hasher)
    (hl : h.unprocessed.length < 64) (hb : h.bytesConsumed + 1 < 2 ^ 64) (b : U8) :
    ∃ h', h.consume process b = .ok h' ∧ h'.unprocessed.length = (h.unprocessed.length + 1) % 64 ∧
      h'.bytesConsumed = h.bytesConsumed + 1 := by
  unfold Md.Hasher.consume
  rw [if_pos hb]
  simp only [List.length_append, List.length_singleton]
  by_cases h64 : h.unprocessed.length + 1 = 64
  · rw [if_pos h64]
    obtain ⟨s, hs⟩ := md_process_ok hP { h with bytesConsumed := h.bytesConsumed + 1, unprocessed := h.unprocessed ++ [b] }
      (by simp [h64])
    rw [hs]
    exact ⟨_, rfl, by rw [h64]; rfl, rfl⟩
  · rw [if_neg h64]
    refine ⟨_, rfl, ?_, rfl⟩
    simp only [List.length_append, List.length_singleton]
    rw [Nat.mod_eq_of_lt (by omega)]

theorem md_feed_ok {process : Vector U32 16 → Md.Abcd → R Md.Abcd} (hP : ∀ x s, ∃ s', process x s = .ok s') (bytes : List U8)
    (h : Md.Hasher) (hl : h.unprocessed.length < 64) (hb : h.bytesConsumed + bytes.length < 2 ^ 64) :
    ∃ h', bytes.foldlM (Md.Hasher.consume process) h = .ok h' ∧
      h'.unprocessed.length = (h.unprocessed.length + bytes.length) % 64 ∧
      h'.bytesConsumed = h.bytesConsumed + bytes.length := by
  induction bytes generalizing h with
  | nil => exact ⟨h, rfl, by rw [List.length_nil, Nat.add_zero, Nat.mod_eq_of_lt hl], rfl⟩
  | cons b bytes ih =>
    rw [List.length_cons] at hb
    obtain ⟨h1, e1, l1, b1⟩ := md_consume_ok hP h hl (by omega) b
    obtain ⟨h2, e2, l2, b2⟩ := ih h1 (by omega) (by omega)
    refine ⟨h2, by simp only [List.foldlM_cons, bind, Except.bind, e1, e2], ?_, ?_⟩
    · rw [l2, l1, List.length_cons]
      omega
    · rw [b2, b1, List.length_cons]; omega

theorem release_consume_ok {process : Vector U32 16 → Md.Abcd → R Md.Abcd} (hP : ∀ x s, ∃ s', process x s = .ok s')
    (h : Md.Hasher) (hl : h.unprocessed.length < 64) (b : U8) :
    ∃ h', Release.consume process h b = .ok h' ∧ h'.unprocessed.length = (h.unprocessed.length + 1) % 64 := by
  unfold Release.consume
  simp only [List.length_append, List.length_singleton]
  by_cases h64 : h.unprocessed.length + 1 = 64
  · rw [if_pos h64]
    obtain ⟨s, hs⟩ := md_process_ok hP { h with bytesConsumed := Release.addW 64 h.bytesConsumed 1, unprocessed := h.unprocessed ++ [b] }
      (by simp [h64])
    rw [hs]
    exact ⟨_, rfl, by rw [h64]; rfl⟩
  · rw [if_neg h64]
    refine ⟨_, rfl, ?_⟩
    simp only [List.length_append, List.length_singleton]
    rw [Nat.mod_eq_of_lt (by omega)]

theorem release_feed_ok {process : Vector U32 16 → Md.Abcd → R Md.Abcd} (hP : ∀ x s, ∃ s', process x s = .ok s')
    (bytes : List U8) (h : Md.Hasher) (hl : h.unprocessed.length < 64) :
    ∃ h', bytes.foldlM (Release.consume process) h = .ok h' ∧
      h'.unprocessed.length = (h.unprocessed.length + bytes.length) % 64 := by
  induction bytes generalizing h with
  | nil => exact ⟨h, rfl, by rw [List.length_nil, Nat.add_zero, Nat.mod_eq_of_lt hl]⟩
  | cons b bytes ih =>
    obtain ⟨h1, e1, l1⟩ := release_consume_ok hP h hl b
    obtain ⟨h2, e2, l2⟩ := ih h1 (by omega)
    refine ⟨h2, by simp only [List.foldlM_cons, bind, Except.bind, e1, e2], ?_⟩
    rw [l2, l1, List.length_cons]
    omega

/-- A call that feeds a hasher and finishes ends as the iterator does. -/
theorem iter_ends {W H α : Type} {next : Eff W (Option U8)} {consume : H → U8 → R H} {h h' : H} {finish : H → R α} {w w' : W}
    {bytes : List U8} {r : R Unit} (hy : Yields next w bytes r w') (hf : bytes.foldlM consume h = .ok h') :
    Ends (fun fuel => do
      let h ← feed next consume fuel h
      Eff.ofR (finish h)) w (r.bind fun _ => finish h') w' := by
  refine ⟨bytes.length + 1, fun fuel hfuel => ?_⟩
  simp only [exec_bind, feed_yields hy hf fuel (by omega)]
  cases r with
  | error e => rfl
  | ok u => simp only [Except.map, exec_ofR, Except.bind]

theorem iter_never {W H α : Type} {next : Eff W (Option U8)} {consume : H → U8 → R H} {h : H} {finish : H → R α} {w : W}
    (hy : ∀ n, ∃ bytes w', bytes.length = n ∧ Gives next w bytes w') (hf : ∀ bytes : List U8, ∃ h', bytes.foldlM consume h = .ok h') :
    NeverEnds (fun fuel => do
      let h ← feed next consume fuel h
      Eff.ofR (finish h)) w := by
  intro fuel
  obtain ⟨bytes, w', hl, hg⟩ := hy fuel
  obtain ⟨h', hf⟩ := hf bytes
  have := feed_endless hg hf
  rw [hl] at this
  simp only [exec_bind]
  cases hx : (feed next consume fuel h).exec w with
  | mk r w1 =>
    rw [hx] at this
    simp only at this
    subst this
    rfl

theorem md4_total : ∀ x s, ∃ s', (fun x s => Except.ok (Md4.process x s) : Vector U32 16 → Md.Abcd → R Md.Abcd) x s = .ok s' :=
  fun _ _ => ⟨_, rfl⟩
theorem md5_total : ∀ x s, ∃ s', Md5.process x s = .ok s' := fun x s => ⟨_, Md5.process_total x s⟩

theorem md_iter_ends {process : Vector U32 16 → Md.Abcd → R Md.Abcd} (hP : ∀ x s, ∃ s', process x s = .ok s') {W : Type}
    {next : Eff W (Option U8)} {w w' : W} {bytes : List U8} {r : R Unit} (hy : Yields next w bytes r w')
    (hl : bytes.length < 2 ^ 64) : Ends (HashIter.md process next) w (r.bind fun _ => Md.hash process bytes) w' := by
  obtain ⟨h', hf, _⟩ := md_feed_ok hP bytes Md.Hasher.new (by decide) (by simpa [Md.Hasher.new] using hl)
  have := iter_ends (finish := fun h : Md.Hasher => h.finish process) hy hf
  have e : Md.hash process bytes = h'.finish process := by unfold Md.hash; rw [hf]; rfl
  rw [e]
  exact this

theorem md_iter_over {process : Vector U32 16 → Md.Abcd → R Md.Abcd} (hP : ∀ x s, ∃ s', process x s = .ok s') {W : Type}
    {next : Eff W (Option U8)} {w w' : W} {bytes : List U8} (hy : Gives next w bytes w')
    (hl : bytes.length = 2 ^ 64) : Ends (HashIter.md process next) w (.error .overflow) w' := by
  have hne : bytes ≠ [] := fun h0 => by rw [h0] at hl; exact absurd hl (by decide)
  have hd : bytes.dropLast.length = 2 ^ 64 - 1 := by rw [List.length_dropLast, hl]
  obtain ⟨h', hf, _, hb⟩ := md_feed_ok hP bytes.dropLast Md.Hasher.new (by decide) (by rw [hd]; decide)
  have hlast : bytes.foldlM (Md.Hasher.consume process) Md.Hasher.new = .error .overflow := by
    rw [← List.dropLast_append_getLast hne, List.foldlM_append, hf]
    simp only [bind, Except.bind, List.foldlM_cons, List.foldlM_nil]
    unfold Md.Hasher.consume
    rw [if_neg (by rw [hb, hd]; decide)]
  refine ⟨bytes.length, fun fuel hfuel => ?_⟩
  unfold HashIter.md
  simp only [exec_bind, feed_gives_error hy hne ⟨h', hf⟩ hlast fuel hfuel]

theorem release_iter_ends {process : Vector U32 16 → Md.Abcd → R Md.Abcd} (hP : ∀ x s, ∃ s', process x s = .ok s') {W : Type}
    {next : Eff W (Option U8)} {w w' : W} {bytes : List U8} {r : R Unit} (hy : Yields next w bytes r w') :
    Ends (HashIter.mdRelease process next) w (r.bind fun _ => Release.mdHash process bytes) w' := by
  obtain ⟨h', hf, _⟩ := release_feed_ok hP bytes Md.Hasher.new (by decide)
  have := iter_ends (finish := Release.finish process) hy hf
  have e : Release.mdHash process bytes = Release.finish process h' := by unfold Release.mdHash; rw [hf]; rfl
  rw [e]
  exact this

/-! ## C141: the iterator is used up and nothing else -/

/-- C141: when the iterator yields `bytes` and then `None`, `md2` returns the MD2 digest of exactly these bytes. The iterator is
not asked again after `None`: it is left in the state it had then. -/
theorem C141_md2 {W : Type} (next : Eff W (Option U8)) (w w' : W) (bytes : List U8) (h : Yields next w bytes (.ok ()) w') :
    ∃ d, d.toList = Spec.Md2.md2 bytes ∧ Ends (HashIter.md2 next) w (.ok d) w' := by
  obtain ⟨d, hd, e⟩ := C32_md2 bytes
  refine ⟨d, e, ?_⟩
  obtain ⟨h', hf, _⟩ := md2_feed_ok bytes Md2.Hasher.new (by decide)
  have := iter_ends (finish := Md2.Hasher.finish) h hf
  have e' : Md2.hash bytes = h'.finish := by unfold Md2.hash; rw [hf]; rfl
  rw [← hd, e']
  exact this

/-- C141 for MD4, up to the length at which the arithmetic overflows (C33). -/
theorem C141_md4 {W : Type} (next : Eff W (Option U8)) (w w' : W) (bytes : List U8) (h : Yields next w bytes (.ok ()) w')
    (hl : bytes.length < 2 ^ 61) : ∃ d, d.toList = Spec.Md.md4 bytes ∧ Ends (HashIter.md4 next) w (.ok d) w' := by
  obtain ⟨d, hd, e⟩ := C33_md4 bytes hl
  refine ⟨d, e, ?_⟩
  rw [← hd]
  exact md_iter_ends md4_total h (lt_trans hl (by decide))

/-- C141 for MD5, up to the length at which the arithmetic overflows (C34). -/
theorem C141_md5 {W : Type} (next : Eff W (Option U8)) (w w' : W) (bytes : List U8) (h : Yields next w bytes (.ok ()) w')
    (hl : bytes.length < 2 ^ 61) : ∃ d, d.toList = Spec.Md.md5 bytes ∧ Ends (HashIter.md5 next) w (.ok d) w' := by
  obtain ⟨d, hd, e⟩ := C34_md5 bytes hl
  refine ⟨d, e, ?_⟩
  rw [← hd]
  exact md_iter_ends md5_total h (lt_trans hl (by decide))

/-- C141 without overflow checks: the digest is right whatever the length is. -/
theorem C141_release {W : Type} (next : Eff W (Option U8)) (w w' : W) (bytes : List U8) (h : Yields next w bytes (.ok ()) w') :
    (∃ d, d.toList = Spec.Md.md4 bytes ∧ Ends (HashIter.md4Release next) w (.ok d) w') ∧
    ∃ d, d.toList = Spec.Md.md5 bytes ∧ Ends (HashIter.md5Release next) w (.ok d) w' := by
  obtain ⟨d, hd, e⟩ := C102_md4 bytes
  obtain ⟨d', hd', e'⟩ := C102_md5 bytes
  refine ⟨⟨d, e, ?_⟩, d', e', ?_⟩
  · rw [← hd]; exact release_iter_ends md4_total h
  · rw [← hd']; exact release_iter_ends md5_total h

/-- C141: when the iterator panics, that panic reaches the caller, and the iterator is not asked again. -/
theorem C141_panic {W : Type} (next : Eff W (Option U8)) (w w' : W) (bytes : List U8) (e : Panic)
    (h : Yields next w bytes (.error e) w') :
    Ends (HashIter.md2 next) w (.error e) w' ∧
    (bytes.length < 2 ^ 64 → Ends (HashIter.md4 next) w (.error e) w' ∧ Ends (HashIter.md5 next) w (.error e) w') ∧
    Ends (HashIter.md4Release next) w (.error e) w' ∧ Ends (HashIter.md5Release next) w (.error e) w' := by
  obtain ⟨h', hf, _⟩ := md2_feed_ok bytes Md2.Hasher.new (by decide)
  exact ⟨iter_ends (finish := Md2.Hasher.finish) h hf, fun hl => ⟨md_iter_ends md4_total h hl, md_iter_ends md5_total h hl⟩,
    release_iter_ends md4_total h, release_iter_ends md5_total h⟩

/-- C141: an iterator of 2^61 bytes or more, but fewer than 2^64, is used up before the checked arithmetic of MD4 and MD5 panics. -/
theorem C141_long {W : Type} (next : Eff W (Option U8)) (w w' : W) (bytes : List U8) (h : Yields next w bytes (.ok ()) w')
    (hl : 2 ^ 61 ≤ bytes.length) (hl' : bytes.length < 2 ^ 64) :
    Ends (HashIter.md4 next) w (.error .overflow) w' ∧ Ends (HashIter.md5 next) w (.error .overflow) w' := by
  have h4 := md_iter_ends md4_total h hl'
  have h5 := md_iter_ends md5_total h hl'
  have e4 := C33_too_long bytes hl
  have e5 := C34_too_long bytes hl
  unfold Md4.hash at e4
  unfold Md5.hash at e5
  rw [e4] at h4
  rw [e5] at h5
  exact ⟨h4, h5⟩

/-- C141: an iterator that has more to give is stopped by the checked arithmetic of MD4 and MD5 at its byte number 2^64, and is not
asked again. -/
theorem C141_endless {W : Type} (next : Eff W (Option U8)) (w w' : W) (bytes : List U8) (h : Gives next w bytes w')
    (hl : bytes.length = 2 ^ 64) :
    Ends (HashIter.md4 next) w (.error .overflow) w' ∧ Ends (HashIter.md5 next) w (.error .overflow) w' :=
  ⟨md_iter_over md4_total h hl, md_iter_over md5_total h hl⟩

/-- C141: MD2, and MD4 and MD5 without overflow checks, never return when the iterator never ends. -/
theorem C141_never {W : Type} (next : Eff W (Option U8)) (w : W)
    (h : ∀ n, ∃ bytes w', bytes.length = n ∧ Gives next w bytes w') :
    NeverEnds (HashIter.md2 next) w ∧ NeverEnds (HashIter.md4Release next) w ∧ NeverEnds (HashIter.md5Release next) w :=
  ⟨iter_never (finish := Md2.Hasher.finish) h fun bytes => (md2_feed_ok bytes Md2.Hasher.new (by decide)).imp fun _ hx => hx.1,
    iter_never (finish := Release.finish _) h fun bytes =>
      (release_feed_ok md4_total bytes Md.Hasher.new (by decide)).imp fun _ hx => hx.1,
    iter_never (finish := Release.finish _) h fun bytes =>
      (release_feed_ok md5_total bytes Md.Hasher.new (by decide)).imp fun _ hx => hx.1⟩

/-- C141, memory: however many bytes have been consumed, the hashers keep only those since the last full block: fewer than 16 in
MD2, fewer than 64 in MD4 and MD5. -/
theorem C141_memory (bytes : List U8) :
    (∃ h, bytes.foldlM Md2.Hasher.consume Md2.Hasher.new = .ok h ∧ h.chunk.length = bytes.length % 16) ∧
    (bytes.length < 2 ^ 64 → ∀ process, process = (fun x s => .ok (Md4.process x s)) ∨ process = Md5.process →
      ∃ h, bytes.foldlM (Md.Hasher.consume process) Md.Hasher.new = .ok h ∧ h.unprocessed.length = bytes.length % 64) := by
  refine ⟨?_, fun hl process hp => ?_⟩
  · obtain ⟨h, e, l⟩ := md2_feed_ok bytes Md2.Hasher.new (by decide)
    exact ⟨h, e, by simpa [Md2.Hasher.new] using l⟩
  · have hP : ∀ x s, ∃ s', process x s = .ok s' := by
      rcases hp with rfl | rfl
      · exact md4_total
      · exact md5_total
    obtain ⟨h, e, l, _⟩ := md_feed_ok hP bytes Md.Hasher.new (by decide) (by simpa [Md.Hasher.new] using hl)
    exact ⟨h, e, by simpa [Md.Hasher.new] using l⟩

/-! ### Concrete iterators -/

/-- An iterator that yields the numbers from 3 down to 1, returns `None` at 0, and would then start again at 200. -/
def countdown : Eff Nat (Option U8) := ExceptT.mk fun n => if n = 0 then (.ok none, 200) else (.ok (some (BitVec.ofNat 8 n)), n - 1)

/-- An iterator that panics at 0. -/
def failing : Eff Nat (Option U8) := ExceptT.mk fun n => if n = 0 then (.error .overflow, 77) else (.ok (some (BitVec.ofNat 8 n)), n - 1)

/-- An iterator that never ends, and counts how often it has been asked. -/
def zeros : Eff Nat (Option U8) := ExceptT.mk fun n => (.ok (some 0#8), n + 1)

theorem zeros_gives (n k : Nat) : Gives zeros k (List.replicate n 0#8) (k + n) := by
  induction n generalizing k with
  | zero => exact .start
  | succ n ih =>
    refine .item (w' := k + 1) rfl ?_
    have := ih (k + 1)
    rwa [show k + (n + 1) = k + 1 + n by omega]

example : ∃ d, d.toList = Spec.Md.md5 [3#8, 2#8, 1#8] ∧ Ends (HashIter.md5 countdown) 3 (.ok d) 200 :=
  C141_md5 countdown 3 200 _ (.item (w' := 2) rfl (.item (w' := 1) rfl (.item (w' := 0) rfl (.none rfl)))) (by decide)

example : ∃ d, d.toList = Spec.Md2.md2 [3#8, 2#8, 1#8] ∧ Ends (HashIter.md2 countdown) 3 (.ok d) 200 :=
  C141_md2 countdown 3 200 _ (.item (w' := 2) rfl (.item (w' := 1) rfl (.item (w' := 0) rfl (.none rfl))))

example : Ends (HashIter.md2 failing) 2 (.error .overflow) 77 :=
  (C141_panic failing 2 77 [2#8, 1#8] .overflow (.item (w' := 1) rfl (.item (w' := 0) rfl (.panic rfl)))).1

example : Ends (HashIter.md5 zeros) 0 (.error .overflow) (2 ^ 64) := by
  have := zeros_gives (2 ^ 64) 0
  rw [Nat.zero_add] at this
  exact (C141_endless zeros 0 _ _ this List.length_replicate).2

example : NeverEnds (HashIter.md2 zeros) 5 :=
  (C141_never zeros 5 fun n => ⟨_, _, List.length_replicate, zeros_gives n 5⟩).1

theorem countdown_yields (n : Nat) : ∃ bytes, bytes.length = n ∧ Yields countdown n bytes (.ok ()) 200 := by
  induction n with
  | zero => exact ⟨[], rfl, .none rfl⟩
  | succ n ih =>
    obtain ⟨bytes, hl, hy⟩ := ih
    exact ⟨_ :: bytes, by rw [List.length_cons, hl], .item (w' := n) rfl hy⟩

/-- C141_long: an iterator of 2^62 bytes. -/
example : Ends (HashIter.md4 countdown) (2 ^ 62) (.error .overflow) 200 ∧ Ends (HashIter.md5 countdown) (2 ^ 62) (.error .overflow) 200 := by
  obtain ⟨bytes, hl, hy⟩ := countdown_yields (2 ^ 62)
  exact C141_long countdown _ _ bytes hy (by rw [hl]; norm_num) (by rw [hl]; norm_num)

/-- C141_release: the same iterator without overflow checks. -/
example : ∃ d w', Ends (HashIter.md5Release countdown) (2 ^ 62) (.ok d) w' := by
  obtain ⟨bytes, hl, hy⟩ := countdown_yields (2 ^ 62)
  obtain ⟨_, d, _, h⟩ := C141_release countdown _ _ bytes hy
  exact ⟨d, _, h⟩

/-- C141_md4 with an iterator of 1000 bytes. -/
example : ∃ d w', Ends (HashIter.md4 countdown) 1000 (.ok d) w' := by
  obtain ⟨bytes, hl, hy⟩ := countdown_yields 1000
  obtain ⟨d, _, h⟩ := C141_md4 countdown _ _ bytes hy (by rw [hl]; norm_num)
  exact ⟨d, _, h⟩

/-- C141_memory after a thousand bytes: 8 and 40 bytes are kept. -/
example : (∃ h, (List.replicate 1000 7#8).foldlM Md2.Hasher.consume Md2.Hasher.new = .ok h ∧ h.chunk.length = 8) ∧
    ∃ h, (List.replicate 1000 7#8).foldlM (Md.Hasher.consume Md5.process) Md.Hasher.new = .ok h ∧ h.unprocessed.length = 40 := by
  obtain ⟨h1, h2⟩ := C141_memory (List.replicate 1000 7#8)
  have h3 := h2 (by rw [List.length_replicate]; norm_num) _ (.inr rfl)
  rw [List.length_replicate] at h1 h3
  exact ⟨h1, h3⟩

end Verif.Props
