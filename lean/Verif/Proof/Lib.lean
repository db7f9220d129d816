import Verif.Model.Lib
import Verif.Spec.Block
import Verif.Proof.Pad

namespace Verif.Model
open Verif Spec

variable {N : Nat} {σ τ : Type}

theorem encLoop_of_steps (m : Mode N σ) (c : BlockCipher N) {s bs os s'}
    (h : Steps (m.encryptBlock c) s bs os s') :
    encLoop m c s bs = (os.flatMap Vector.toList, .ok s') := by
  induction h with
  | nil => rfl
  | cons h _ ih => simp [encLoop, h, ih]

theorem encLoop_of_panic (m : Mode N σ) (c : BlockCipher N) {s bs os s' b e} (rest)
    (h : Steps (m.encryptBlock c) s bs os s') (hb : m.encryptBlock c s' b = .error e) :
    encLoop m c s (bs ++ b :: rest) = (os.flatMap Vector.toList, .error e) := by
  induction h with
  | nil => simp [encLoop, hb]
  | cons h _ ih => simp [encLoop, h, ih hb]

/-- Either all steps succeed or there is a first block at which the transformer panics. -/
theorem steps_or_panic {β : Type} (step : σ → β → R (β × σ)) (s : σ) (bs : List β) :
    (∃ os s', Steps step s bs os s') ∨
    ∃ pre b post os s' e, bs = pre ++ b :: post ∧ Steps step s pre os s' ∧ step s' b = .error e := by
  induction bs generalizing s with
  | nil => exact .inl ⟨[], s, .nil s⟩
  | cons b bs ih =>
    cases h : step s b with
    | error e => exact .inr ⟨[], b, bs, [], s, e, rfl, .nil s, h⟩
    | ok p =>
      obtain ⟨o, s1⟩ := p
      rcases ih s1 with ⟨os, s', hs⟩ | ⟨pre, b', post, os, s', e, rfl, hs, he⟩
      · exact .inl ⟨_, _, .cons h hs⟩
      · exact .inr ⟨b :: pre, b', post, o :: os, s', e, rfl, .cons h hs, he⟩

theorem decLoop_of_steps (m : Mode N σ) (c : BlockCipher N) {s bs os s'} (pending : Option (Vector U8 N))
    (h : Steps (m.decryptBlock c) s bs os s') :
    decLoop m c s pending bs =
      (((pending.toList ++ os).dropLast).flatMap Vector.toList, .ok ((pending.toList ++ os).getLast?)) := by
  induction h generalizing pending with
  | nil => cases pending <;> simp [decLoop]
  | @cons s b o s1 bs os s2 h _ ih =>
    have ih' := ih (some o)
    cases pending with
    | none => simp [decLoop, h, ih']
    | some p => simp [decLoop, h, ih']

theorem decLoop_of_panic (m : Mode N σ) (c : BlockCipher N) {s bs os s' b e} (rest)
    (pending : Option (Vector U8 N))
    (h : Steps (m.decryptBlock c) s bs os s') (hb : m.decryptBlock c s' b = .error e) :
    decLoop m c s pending (bs ++ b :: rest) =
      (((pending.toList ++ os).dropLast).flatMap Vector.toList, .error e) := by
  induction h generalizing pending with
  | nil => cases pending <;> simp [decLoop, hb]
  | @cons s b o s1 bs os s2 h _ ih =>
    have ih' := ih (some o) hb
    cases pending with
    | none => simp [decLoop, h, ih']
    | some p => simp [decLoop, h, ih']

theorem Steps.append {β : Type} {step : σ → β → R (β × σ)} {s bs os s' bs2 os2 s2}
    (h : Steps step s bs os s') (h2 : Steps step s' bs2 os2 s2) :
    Steps step s (bs ++ bs2) (os ++ os2) s2 := by
  induction h with
  | nil => simpa using h2
  | cons h _ ih => exact .cons h (ih h2)

theorem Steps.length {β : Type} {step : σ → β → R (β × σ)} {s bs os s'}
    (h : Steps step s bs os s') : os.length = bs.length := by
  induction h with
  | nil => rfl
  | cons _ _ ih => simp [ih]

theorem Steps.split_last {β : Type} {step : σ → β → R (β × σ)} {s bs b os s'}
    (h : Steps step s (bs ++ [b]) os s') :
    ∃ os1 o s1, os = os1 ++ [o] ∧ Steps step s bs os1 s1 ∧ step s1 b = .ok (o, s') := by
  induction bs generalizing s os with
  | nil =>
    cases h with
    | cons h1 h2 => cases h2 with | nil => exact ⟨[], _, s, rfl, .nil s, h1⟩
  | cons b' bs ih =>
    cases h with
    | cons h1 h2 =>
      obtain ⟨os1, o, s1, rfl, h3, h4⟩ := ih h2
      exact ⟨_ :: os1, o, s1, rfl, .cons h1 h3, h4⟩

theorem lawful_steps {enc : σ → Vector U8 N → R (Vector U8 N × σ)}
    {dec : τ → Vector U8 N → R (Vector U8 N × τ)} {Rel : σ → τ → Prop} (h : Lawful enc dec Rel)
    {s : σ} {t : τ} (hr : Rel s t) (bs : List (Vector U8 N)) :
    ∃ os s' t', Steps enc s bs os s' ∧ Steps dec t os bs t' ∧ Rel s' t' := by
  induction bs generalizing s t with
  | nil => exact ⟨[], s, t, .nil s, .nil t, hr⟩
  | cons b bs ih =>
    obtain ⟨o, s1, t1, h1, h2, h3⟩ := h.step s t b hr
    obtain ⟨os, s', t', h4, h5, h6⟩ := ih h3
    exact ⟨o :: os, s', t', .cons h1 h4, .cons h2 h5, h6⟩

theorem blockEncrypt_steps (m : Mode N σ) (c : BlockCipher N) {s s' : σ} (bs : List (Vector U8 N))
    (tail : List U8) (ht : tail.length < N) (last : Vector U8 N) (hl : last.toList = pkcs7 N tail)
    {os} (h : Steps (m.encryptBlock c) s (bs ++ [last]) os s') :
    blockEncrypt m c s (bs.flatMap Vector.toList ++ tail) = ⟨os.flatMap Vector.toList, .ok ()⟩ := by
  obtain ⟨v, hv, hv'⟩ := Pad.pkcsPad_ok ht
  have : v = last := Vector.toList_inj.1 (hv'.trans hl.symm)
  subst this
  obtain ⟨os1, o, s1, rfl, h1, h2⟩ := Steps.split_last h
  simp [blockEncrypt, show N ≠ 0 by omega, chunksRem_eq bs tail ht, chunksExact_eq bs tail ht, hv,
    encLoop_of_steps m c h1, h2]

theorem blockEncrypt_panic_block (m : Mode N σ) (c : BlockCipher N) {s s' : σ}
    (tail : List U8) (ht : tail.length < N) {os b e} (pre post : List (Vector U8 N))
    (h : Steps (m.encryptBlock c) s pre os s') (he : m.encryptBlock c s' b = .error e) :
    blockEncrypt m c s ((pre ++ b :: post).flatMap Vector.toList ++ tail) =
      ⟨os.flatMap Vector.toList, .error e⟩ := by
  obtain ⟨v, hv, hv'⟩ := Pad.pkcsPad_ok ht
  simp only [blockEncrypt, show N ≠ 0 by omega, chunksRem_eq _ tail ht, chunksExact_eq _ tail ht, hv,
    encLoop_of_panic m c post h he, if_false]

theorem blockEncrypt_panic_last (m : Mode N σ) (c : BlockCipher N) {s s' : σ}
    (tail : List U8) (ht : tail.length < N) {os e} (bs : List (Vector U8 N))
    (last : Vector U8 N) (hl : last.toList = pkcs7 N tail)
    (h : Steps (m.encryptBlock c) s bs os s') (he : m.encryptBlock c s' last = .error e) :
    blockEncrypt m c s (bs.flatMap Vector.toList ++ tail) = ⟨os.flatMap Vector.toList, .error e⟩ := by
  obtain ⟨v, hv, hv'⟩ := Pad.pkcsPad_ok ht
  have : v = last := Vector.toList_inj.1 (hv'.trans hl.symm)
  subst this
  simp only [blockEncrypt, show N ≠ 0 by omega, chunksRem_eq _ tail ht, chunksExact_eq _ tail ht, hv,
    encLoop_of_steps m c h, if_false, he]

theorem blockDecrypt_steps (m : Mode N σ) (c : BlockCipher N) (hN : 0 < N) {s s' : σ}
    (bs : List (Vector U8 N)) (os : List (Vector U8 N)) (last : Vector U8 N)
    (h : Steps (m.decryptBlock c) s bs (os ++ [last]) s') :
    blockDecrypt m c s (bs.flatMap Vector.toList) =
      if N < (last[N - 1]).toNat then ⟨os.flatMap Vector.toList, .error .explicit⟩
      else ⟨os.flatMap Vector.toList ++ last.toList.take (N - (last[N - 1]).toNat), .ok ()⟩ := by
  have e1 := chunksRem_eq bs [] (show ([] : List U8).length < N by simpa using hN)
  have e2 := chunksExact_eq bs [] (show ([] : List U8).length < N by simpa using hN)
  rw [List.append_nil] at e1 e2
  have e3 := decLoop_of_steps m c none h
  simp only [Option.toList_none, List.nil_append, List.dropLast_concat, List.getLast?_concat] at e3
  simp only [blockDecrypt, show N ≠ 0 by omega, e1, e2, e3, Pad.pkcsUnpad_of_last hN last, if_false,
    ne_eq, not_true_eq_false]
  by_cases hx : N < (last[N - 1]).toNat
  · rw [if_pos hx, if_pos hx]
  · rw [if_neg hx, if_neg hx]

theorem blockDecrypt_panic_block (m : Mode N σ) (c : BlockCipher N) (hN : 0 < N) {s s' : σ}
    {os b e} (pre post : List (Vector U8 N))
    (h : Steps (m.decryptBlock c) s pre os s') (he : m.decryptBlock c s' b = .error e) :
    blockDecrypt m c s ((pre ++ b :: post).flatMap Vector.toList) =
      ⟨os.dropLast.flatMap Vector.toList, .error e⟩ := by
  have e1 := chunksRem_eq (pre ++ b :: post) [] (show ([] : List U8).length < N by simpa using hN)
  have e2 := chunksExact_eq (pre ++ b :: post) [] (show ([] : List U8).length < N by simpa using hN)
  rw [List.append_nil] at e1 e2
  have e3 := decLoop_of_panic m c post none h he
  simp only [Option.toList_none, List.nil_append] at e3
  simp only [blockDecrypt, show N ≠ 0 by omega, e1, e2, e3, if_false, ne_eq, not_true_eq_false]

theorem blockDecrypt_badLength (m : Mode N σ) (c : BlockCipher N) (hN : 0 < N) (s : σ) (ct : List U8)
    (h : ct.length % N ≠ 0) : blockDecrypt m c s ct = ⟨[], .error .explicit⟩ := by
  obtain ⟨bs, tail, e, ht, _⟩ := exists_chunks hN ct
  have ht' : tail.length < N := ht ▸ Nat.mod_lt _ hN
  have hne : tail ≠ [] := by
    intro h0; rw [h0] at ht; exact h ht.symm
  rw [e]
  simp [blockDecrypt, show N ≠ 0 by omega, chunksRem_eq bs tail ht', hne]

theorem blockDecrypt_empty (m : Mode N σ) (c : BlockCipher N) (hN : 0 < N) (s : σ) :
    blockDecrypt m c s [] = ⟨[], .error .unwrap⟩ := by
  have e2 := chunksExact_eq ([] : List (Vector U8 N)) [] (show ([] : List U8).length < N by simpa using hN)
  simp only [List.flatMap_nil, List.append_nil] at e2
  simp [blockDecrypt, show N ≠ 0 by omega, e2, decLoop, chunksRem]

/-- Round trip, with the exact condition on the number of padding bytes. -/
theorem roundtrip_iff {m : Mode N σ} {m' : Mode N τ} {c : BlockCipher N} {Rel : σ → τ → Prop}
    (hN : 0 < N)
    (h : Lawful (m.encryptBlock c) (m'.decryptBlock c) Rel) {s : σ} {t : τ} (hr : Rel s t)
    (pt : List U8) :
    (blockEncrypt m c s pt).result = .ok () ∧
    (blockDecrypt m' c t (blockEncrypt m c s pt).emitted = ⟨pt, .ok ()⟩ ↔ N - pt.length % N ≤ 255) := by
  obtain ⟨bs, tail, e, ht, _⟩ := exists_chunks hN pt
  have ht' : tail.length < N := ht ▸ Nat.mod_lt _ hN
  obtain ⟨last, hlast, hl⟩ := Pad.pkcsPad_ok ht'
  obtain ⟨os, s', t', h1, h2, _⟩ := lawful_steps h hr (bs ++ [last])
  have he := blockEncrypt_steps m c bs tail ht' last hl h1
  rw [← e] at he
  rw [he]
  refine ⟨rfl, ?_⟩
  rw [blockDecrypt_steps m' c hN os bs last h2, ← ht]
  have hlast' : last[N - 1] = BitVec.ofNat 8 (N - tail.length) :=
    Pad.last_of_toList last _ hl hN (Pad.pkcs7_last ht')
  rw [hlast', hl]
  simp only [BitVec.toNat_ofNat]
  constructor
  · intro hh
    by_cases hx : N < (N - tail.length) % 2 ^ 8
    · rw [if_pos hx] at hh; simp at hh
    · rw [if_neg hx] at hh
      simp only [Run.mk.injEq, and_true] at hh
      have hlen := congrArg List.length hh
      rw [e] at hlen
      simp only [List.length_append, List.length_take, Pad.pkcs7_length (Nat.le_of_lt ht')] at hlen
      have hm := Nat.mod_lt (N - tail.length) (show 0 < 2 ^ 8 by decide)
      omega
  · intro hh
    have : (N - tail.length) % 2 ^ 8 = N - tail.length := Nat.mod_eq_of_lt (by omega)
    rw [this, if_neg (by omega)]
    have e3 : N - (N - tail.length) = tail.length := by omega
    rw [e3, pkcs7, List.take_left', e]
    rfl

theorem streamEncrypt_append {next : KeyIter σ} (s : σ) (a b : List U8)
    (h : (streamEncrypt next s a).result = .ok ()) :
    streamEncrypt next s (a ++ b) =
      ⟨(streamEncrypt next s a).yielded ++ (streamEncrypt next (streamEncrypt next s a).keys b).yielded,
       (streamEncrypt next (streamEncrypt next s a).keys b).keys,
       (streamEncrypt next (streamEncrypt next s a).keys b).result⟩ := by
  induction a generalizing s with
  | nil => simp [streamEncrypt]
  | cons d ds ih =>
    cases hn : next s with
    | mk k s' =>
      cases k with
      | none => simp [streamEncrypt, hn] at h
      | some k =>
        simp only [streamEncrypt, hn] at h
        simp [streamEncrypt, hn, ih s' h]

theorem streamEncrypt_append_fail {next : KeyIter σ} (s : σ) (a b : List U8) {e}
    (h : (streamEncrypt next s a).result = .error e) :
    streamEncrypt next s (a ++ b) = streamEncrypt next s a := by
  induction a generalizing s with
  | nil => simp [streamEncrypt] at h
  | cons d ds ih =>
    cases hn : next s with
    | mk k s' =>
      cases k with
      | none => simp [streamEncrypt, hn]
      | some k =>
        simp only [streamEncrypt, hn] at h
        simp [streamEncrypt, hn, ih s' h]

theorem streamEncrypt_keys {next : KeyIter σ} {s s' : σ} {ks : List U8} (h : Keys next s ks s')
    (m : List U8) (hl : m.length = ks.length) :
    streamEncrypt next s m = ⟨List.zipWith (· ^^^ ·) ks m, s', .ok ()⟩ := by
  induction h generalizing m with
  | nil => cases m with
    | nil => rfl
    | cons => simp at hl
  | cons h _ ih => cases m with
    | nil => simp at hl
    | cons d ds => simp [streamEncrypt, h, ih ds (by simpa using hl)]

theorem streamEncrypt_exhausted {next : KeyIter σ} {s s' s'' : σ} {ks : List U8} (h : Keys next s ks s')
    (hend : next s' = (none, s'')) (m : List U8) (hl : ks.length < m.length) :
    streamEncrypt next s m = ⟨List.zipWith (· ^^^ ·) ks m, s'', .error .unwrap⟩ := by
  induction h generalizing m with
  | nil => cases m with
    | nil => simp at hl
    | cons => simp [streamEncrypt, hend]
  | cons h _ ih => cases m with
    | nil => simp at hl
    | cons d ds => simp [streamEncrypt, h, ih hend ds (by simpa using hl)]

theorem zipWith_xor_self (ks m : List U8) (h : m.length = ks.length) :
    List.zipWith (· ^^^ ·) ks (List.zipWith (· ^^^ ·) ks m) = m := by
  induction ks generalizing m with
  | nil => cases m with
    | nil => rfl
    | cons => simp at h
  | cons k ks ih => cases m with
    | nil => simp
    | cons d ds =>
      simp only [List.zipWith_cons_cons, List.cons.injEq]
      refine ⟨?_, ih ds (by simpa using h)⟩
      rw [← BitVec.xor_assoc, BitVec.xor_self, BitVec.zero_xor]

end Verif.Model
