import Verif.Proof.Lib
import Mathlib.Tactic.Choose
import Verif.Spec.ChosenPrefix

/-! # The chosen-prefix attack finds the secret -/

namespace Verif.Spec.ChosenPrefix
open Verif Model

variable {N : Nat} {σ τ : Type}

theorem part_flatMap (bs : List (Vector U8 N)) (i : Nat) (hi : i < bs.length) :
    part N i (bs.flatMap Vector.toList) = bs[i].toList := by
  unfold part
  induction bs generalizing i with
  | nil => simp at hi
  | cons b bs ih =>
    cases i with
    | zero => simp
    | succ i =>
      have hi' : i < bs.length := by simpa using hi
      have e : N * (i + 1) = b.toList.length + N * i := by simp [Nat.mul_add, Nat.add_comm]
      rw [List.flatMap_cons, e, ← List.drop_drop, List.drop_left', ih i hi']
      · simp
      · rfl

theorem lawful_steps {enc : σ → Vector U8 N → R (Vector U8 N × σ)} {dec : τ → Vector U8 N → R (Vector U8 N × τ)}
    {Rel : σ → τ → Prop} (hlaw : Lawful enc dec Rel) {s : σ} {t : τ} (h : Rel s t) (bs : List (Vector U8 N)) :
    ∃ os s' t', Steps enc s bs os s' ∧ Rel s' t' := by
  induction bs generalizing s t with
  | nil => exact ⟨[], s, t, .nil s, h⟩
  | cons b bs ih =>
    obtain ⟨o, s1, t1, h1, _, h2⟩ := hlaw.step s t b h
    obtain ⟨os, s', t', h3, h4⟩ := ih h2
    exact ⟨o :: os, s', t', .cons h1 h3, h4⟩

/-- The emitted length. -/
theorem emitted_length (hN : 1 ≤ N) {m : Mode N σ} {c : BlockCipher N} {dec : τ → Vector U8 N → R (Vector U8 N × τ)}
    {Rel : σ → τ → Prop} (hlaw : Lawful (m.encryptBlock c) dec Rel) {s : σ} {t : τ} (h : Rel s t) (p : List U8) :
    (blockEncrypt m c s p).emitted.length = (p.length / N + 1) * N := by
  obtain ⟨bs, tail, e, ht, hb⟩ := exists_chunks hN p
  have ht' : tail.length < N := ht ▸ Nat.mod_lt _ hN
  obtain ⟨last, _, hl⟩ := Pad.pkcsPad_ok ht'
  obtain ⟨os, s', _, hs, _⟩ := lawful_steps hlaw h (bs ++ [last])
  conv => lhs; rw [e, blockEncrypt_steps m c bs tail ht' last hl hs]
  rw [length_flatMap_toList, Steps.length hs, List.length_append, hb]
  rfl

/-- Behind a text that leaves room for one byte in block `j`, this byte determines block `j` of the ciphertext, and is
determined by it. -/
theorem last_byte (hN : 1 ≤ N) {m : Mode N σ} {c : BlockCipher N} {dec : τ → Vector U8 N → R (Vector U8 N × τ)}
    {Rel : σ → τ → Prop} (hlaw : Lawful (m.encryptBlock c) dec Rel) {s : σ} {t : τ} (h : Rel s t)
    (w : List U8) (j : Nat) (hw : w.length = N * j + (N - 1)) :
    ∃ f : U8 → List U8, Function.Injective f ∧
      ∀ b rest, part N j (blockEncrypt m c s (w ++ b :: rest)).emitted = f b := by
  obtain ⟨bs, tail, e, ht, hb⟩ := exists_chunks hN w
  have hj : w.length / N = j := by
    rw [hw, Nat.mul_add_div (by omega), Nat.div_eq_of_lt (by omega), Nat.add_zero]
  have hm : w.length % N = N - 1 := by rw [hw, Nat.mul_add_mod, Nat.mod_eq_of_lt (by omega)]
  rw [hj] at hb
  rw [hm] at ht
  obtain ⟨os, s1, t1, hs, h1⟩ := lawful_steps hlaw h bs
  let blk : U8 → Vector U8 N := fun b => ⟨(tail ++ [b]).toArray, by simp; omega⟩
  have hblk : ∀ b, (blk b).toList = tail ++ [b] := fun b => rfl
  choose out s2 t2 h2 h3 h4 using fun b => hlaw.step s1 t1 (blk b) h1
  refine ⟨fun b => (out b).toList, ?_, ?_⟩
  · intro b b' hbb
    have ho : out b = out b' := Vector.toList_inj.1 hbb
    have := h3 b
    rw [ho, h3 b'] at this
    have hv : blk b' = blk b := (Prod.mk.inj (Except.ok.inj this)).1
    have hl := congrArg Vector.toList hv
    rw [hblk, hblk] at hl
    simpa using hl.symm
  · intro b rest
    obtain ⟨cs, tl, e', ht2, hb'⟩ := exists_chunks hN rest
    have ht' : tl.length < N := ht2 ▸ Nat.mod_lt _ hN
    obtain ⟨last, _, hl⟩ := Pad.pkcsPad_ok ht'
    obtain ⟨os2, s3, _, hs2, _⟩ := lawful_steps hlaw (h4 b) (cs ++ [last])
    have hall := Steps.append hs (.cons (h2 b) hs2)
    have ep : w ++ b :: rest = (bs ++ blk b :: cs).flatMap Vector.toList ++ tl := by
      rw [e, e']
      simp [hblk]
    have hall' : Steps (m.encryptBlock c) s ((bs ++ blk b :: cs) ++ [last]) (os ++ out b :: os2) s3 := by simpa using hall
    have ho := Steps.length hs
    rw [ep, blockEncrypt_steps m c _ tl ht' last hl hall', part_flatMap _ j (by simp; omega)]
    rw [List.getElem_append_right (by omega)]
    simp [ho, hb]

theorem run_tryBytes {oracle : List U8 → List U8} {j : Nat} {front : List U8} {f : U8 → List U8}
    (hf : Function.Injective f) (ho : ∀ b, part N j (oracle (front ++ [b])) = f b) (x : U8)
    (found : U8 → Strategy (List U8)) (l : List U8) (hx : x ∈ l) :
    ((tryBytes N j front (f x) found l).run oracle).1 = ((found x).run oracle).1 ∧
    ((tryBytes N j front (f x) found l).run oracle).2 ≤ ((found x).run oracle).2 + l.length := by
  induction l with
  | nil => cases hx
  | cons b l ih =>
    unfold tryBytes
    simp only [Strategy.run, ho]
    by_cases hb : b = x
    · subst hb
      simp
    · have hne : f b ≠ f x := fun e => hb (hf e)
      have hx' : x ∈ l := (List.mem_cons.1 hx).resolve_left (fun e => hb e.symm)
      simp only [hne, if_false, List.length_cons]
      obtain ⟨h1, h2⟩ := ih hx'
      exact ⟨h1, by omega⟩

theorem run_readBytes (hN : 1 ≤ N) {m : Mode N σ} {c : BlockCipher N} {dec : τ → Vector U8 N → R (Vector U8 N × τ)}
    {Rel : σ → τ → Prop} (hlaw : Lawful (m.encryptBlock c) dec Rel) {s : σ} {t : τ} (h : Rel s t)
    (known rest : List U8) :
    ((readBytes N rest.length known).run fun p => (blockEncrypt m c s (p ++ (known ++ rest))).emitted).1 = known ++ rest ∧
    ((readBytes N rest.length known).run fun p => (blockEncrypt m c s (p ++ (known ++ rest))).emitted).2
      ≤ 257 * rest.length := by
  induction rest generalizing known with
  | nil => simp [readBytes, Strategy.run]
  | cons x rest ih =>
    simp only [List.length_cons, readBytes, Strategy.run]
    have hmod := Nat.mod_lt known.length hN
    have hdm := Nat.div_add_mod known.length N
    have hw : (List.replicate (N - 1 - known.length % N) 0#8 ++ known).length = N * (known.length / N) + (N - 1) := by
      simp; omega
    obtain ⟨f, hf, hp⟩ := last_byte hN hlaw h _ _ hw
    have hwant : part N (known.length / N) (blockEncrypt m c s
        (List.replicate (N - 1 - known.length % N) 0#8 ++ (known ++ x :: rest))).emitted = f x := by
      rw [← List.append_assoc, hp x rest]
    rw [hwant]
    obtain ⟨h1, h2⟩ := run_tryBytes (N := N) (oracle := fun p => (blockEncrypt m c s (p ++ (known ++ x :: rest))).emitted)
      (j := known.length / N) (front := List.replicate (N - 1 - known.length % N) 0#8 ++ known) hf
      (fun b => by
        have := hp b (known ++ x :: rest)
        simpa using this) x (fun b => readBytes N rest.length (known ++ [b]))
      ((List.range 256).map (BitVec.ofNat 8)) (List.mem_map.2 ⟨x.toNat, List.mem_range.2 x.isLt, by simp⟩)
    have e : known ++ x :: rest = (known ++ [x]) ++ rest := by simp
    obtain ⟨h3, h4⟩ := ih (known ++ [x])
    rw [← e] at h3 h4
    rw [List.length_map, List.length_range] at h2
    exact ⟨h1.trans h3, by omega⟩

theorem run_measure (hN : 1 ≤ N) {m : Mode N σ} {c : BlockCipher N} {dec : τ → Vector U8 N → R (Vector U8 N × τ)}
    {Rel : σ → τ → Prop} (hlaw : Lawful (m.encryptBlock c) dec Rel) {s : σ} {t : τ} (h : Rel s t) (secret : List U8)
    (n i : Nat) (hi : 1 ≤ i) (hiN : i ≤ N - secret.length % N) (hn : N - secret.length % N < i + n) :
    ((measure ((secret.length / N + 1) * N) n i).run fun p => (blockEncrypt m c s (p ++ secret)).emitted).1 = secret ∧
    ((measure ((secret.length / N + 1) * N) n i).run fun p => (blockEncrypt m c s (p ++ secret)).emitted).2
      ≤ N + 1 - i + 257 * secret.length := by
  have hmod := Nat.mod_lt secret.length hN
  have hdm := Nat.div_add_mod secret.length N
  have hmul : (secret.length / N + 1) * N = N * (secret.length / N) + N := by rw [Nat.mul_comm, Nat.mul_add, Nat.mul_one]
  induction n generalizing i with
  | zero => omega
  | succ n ih =>
    simp only [measure, Strategy.run, emitted_length hN hlaw h, List.length_append, List.length_replicate]
    by_cases hlt : i < N - secret.length % N
    · have e : (i + secret.length) / N = secret.length / N := by
        have : i + secret.length = N * (secret.length / N) + (i + secret.length % N) := by omega
        rw [this, Nat.mul_add_div (by omega), Nat.div_eq_of_lt (a := i + secret.length % N) (by omega), Nat.add_zero]
      rw [e, if_neg (Nat.lt_irrefl _)]
      obtain ⟨h1, h2⟩ := ih (i + 1) (by omega) (by omega) (by omega)
      exact ⟨h1, by omega⟩
    · have hie : i = N - secret.length % N := by omega
      have e : (i + secret.length) / N = secret.length / N + 1 := by
        have : i + secret.length = N * (secret.length / N + 1) := by rw [Nat.mul_add]; omega
        rw [this, Nat.mul_div_cancel_left _ (by omega)]
      have e2 : (secret.length / N + 1 + 1) * N = (secret.length / N + 1) * N + N := by rw [Nat.add_mul, Nat.one_mul]
      rw [e, e2, if_pos (by omega), Nat.add_sub_cancel_left]
      have e3 : (secret.length / N + 1) * N - i = secret.length := by omega
      rw [e3]
      obtain ⟨h1, h2⟩ := run_readBytes hN hlaw h [] secret
      simp only [List.nil_append] at h1 h2
      exact ⟨h1, by omega⟩

theorem run_attack (hN : 1 ≤ N) (hN' : N ≤ 255) {m : Mode N σ} {c : BlockCipher N}
    {dec : τ → Vector U8 N → R (Vector U8 N × τ)}
    {Rel : σ → τ → Prop} (hlaw : Lawful (m.encryptBlock c) dec Rel) {s : σ} {t : τ} (h : Rel s t) (secret : List U8) :
    (attack.run fun p => (blockEncrypt m c s (p ++ secret)).emitted).1 = secret ∧
    (attack.run fun p => (blockEncrypt m c s (p ++ secret)).emitted).2 ≤ N + 1 + 257 * secret.length := by
  have hmod := Nat.mod_lt secret.length hN
  simp only [attack, Strategy.run, List.nil_append, emitted_length hN hlaw h]
  obtain ⟨h1, h2⟩ := run_measure hN hlaw h secret 255 1 (by omega) (by omega) (by omega)
  exact ⟨h1, by omega⟩

end Verif.Spec.ChosenPrefix
