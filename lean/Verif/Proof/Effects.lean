import Verif.Spec.Effects
import Verif.Proof.Lib

/-! # Lemmas about callbacks and lazy iterators -/

namespace Verif.Model.Effects
open Verif Verif.Model Verif.Spec.Effects

@[simp] theorem exec_pure {W α : Type} (a : α) (w : W) : Eff.exec (pure a : Eff W α) w = (.ok a, w) := rfl
@[simp] theorem exec_throw {W α : Type} (e : Panic) (w : W) : Eff.exec (throw e : Eff W α) w = (.error e, w) := rfl

theorem exec_bind {W α β : Type} (x : Eff W α) (f : α → Eff W β) (w : W) :
    Eff.exec (x >>= f) w = match Eff.exec x w with
      | (.ok a, w') => Eff.exec (f a) w'
      | (.error e, w') => (.error e, w') := by
  unfold Eff.exec
  change (match StateT.run (ExceptT.run x) w with | (a, s') => StateT.run (ExceptT.bindCont f a) s') = _
  rcases StateT.run (ExceptT.run x) w with ⟨r, w'⟩
  cases r <;> rfl

@[simp] theorem exec_onFst {σ τ α : Type} (f : σ → R α × σ) (w : σ × τ) :
    Eff.exec (onFst f) w = ((f w.1).1, ((f w.1).2, w.2)) := rfl
@[simp] theorem exec_onSnd {σ τ α : Type} (f : τ → R α × τ) (w : σ × τ) :
    Eff.exec (onSnd f) w = ((f w.2).1, (w.1, (f w.2).2)) := rfl

theorem exec_ite {W α : Type} (p : Prop) [Decidable p] (x y : Eff W α) (w : W) :
    Eff.exec (if p then x else y) w = if p then Eff.exec x w else Eff.exec y w := by split <;> rfl

@[simp] theorem exec_ofR {W α : Type} (r : R α) (w : W) : Eff.exec (Eff.ofR r) w = (r, w) := by cases r <;> rfl

/-! ## Callbacks -/

theorem deliver_append {τ : Type} (out : U8 → τ → R Unit × τ) (a b : List U8) (r : R Unit) (t : τ) :
    deliver out (a ++ b) r t = match deliver out a (.ok ()) t with
      | (.ok _, t') => deliver out b r t'
      | (.error e, t') => (.error e, t') := by
  induction a generalizing t with
  | nil => rfl
  | cons x xs ih =>
    simp only [List.cons_append, deliver]
    rcases h : out x t with ⟨r', t'⟩
    cases r' with
    | error e => rfl
    | ok u => exact ih t'

/-- How a computation ends does not influence what the callback sees. -/
theorem deliver_error {τ : Type} (out : U8 → τ → R Unit × τ) (a : List U8) (r : R Unit) (t : τ) :
    deliver out a r t = match deliver out a (.ok ()) t with
      | (.ok _, t') => (r, t')
      | (.error e, t') => (.error e, t') := by
  have := deliver_append out a [] r t
  rwa [List.append_nil] at this

theorem deliver_ok {τ : Type} {out : U8 → τ → R Unit × τ} {a : List U8} {t t' : τ} {u : Unit} (r : R Unit)
    (h : deliver out a (.ok ()) t = (.ok u, t')) : deliver out a r t = (r, t') := by rw [deliver_error, h]

theorem deliver_err {τ : Type} {out : U8 → τ → R Unit × τ} {a : List U8} {t t' : τ} {e : Panic} (r : R Unit)
    (h : deliver out a (.ok ()) t = (.error e, t')) : deliver out a r t = (.error e, t') := by rw [deliver_error, h]

theorem exec_outputAll {σ τ : Type} (out : U8 → τ → R Unit × τ) (bs : List U8) (s : σ) (t : τ) :
    Eff.exec (outputAll (fun b => onSnd (out b)) bs) (s, t) = ((deliver out bs (.ok ()) t).1, (s, (deliver out bs (.ok ()) t).2)) := by
  induction bs generalizing t with
  | nil => rfl
  | cons b bs ih =>
    rw [outputAll, exec_bind, exec_onSnd, deliver]
    rcases h : out b t with ⟨r, t'⟩
    cases r with
    | error e => simp
    | ok u => simp [ih]

theorem exec_encLoop {N : Nat} {σ τ : Type} (m : Mode N σ) (c : BlockCipher N) (out : U8 → τ → R Unit × τ)
    (bs : List (Vector U8 N)) (s : σ) (t : τ) :
    match Model.encLoop m c s bs with
    | (bytes, .ok s') =>
      ∃ s'', Eff.exec (encLoop (fun b => onFst (stepMode (m.encryptBlock c) b)) (fun b => onSnd (out b)) bs) (s, t) =
        ((deliver out bytes (.ok ()) t).1, (s'', (deliver out bytes (.ok ()) t).2)) ∧
        ((deliver out bytes (.ok ()) t).1 = .ok () → s'' = s')
    | (bytes, .error e) =>
      ∃ s'', Eff.exec (encLoop (fun b => onFst (stepMode (m.encryptBlock c) b)) (fun b => onSnd (out b)) bs) (s, t) =
        ((deliver out bytes (.error e) t).1, (s'', (deliver out bytes (.error e) t).2)) := by
  induction bs generalizing s t with
  | nil => exact ⟨s, rfl, fun _ => rfl⟩
  | cons b bs ih =>
    rw [encLoop, Model.encLoop, exec_bind, exec_onFst]
    simp only [stepMode]
    rcases h : m.encryptBlock c s b with e | ⟨o, s1⟩
    · exact ⟨s, rfl⟩
    · simp only [exec_bind, exec_outputAll]
      rcases hd : deliver out o.toList (.ok ()) t with ⟨r, t1⟩
      have key := ih s1 t1
      rcases hl : Model.encLoop m c s1 bs with ⟨bytes, r2⟩
      rw [hl] at key
      cases r with
      | error e =>
        cases r2 with
        | error e2 => exact ⟨s1, by simp [deliver_append, hd]⟩
        | ok s2 => exact ⟨s1, by simp [deliver_append, hd], by simp [deliver_append, hd]⟩
      | ok u =>
        cases r2 with
        | error e2 => simpa [deliver_append, hd] using key
        | ok s2 => simpa [deliver_append, hd] using key

theorem exec_encrypt {N : Nat} {σ τ : Type} (m : Mode N σ) (c : BlockCipher N) (out : U8 → τ → R Unit × τ)
    (plaintext : List U8) (s : σ) (t : τ) :
    ∃ s', Eff.exec (encrypt (fun b => onFst (stepMode (m.encryptBlock c) b)) (fun b => onSnd (out b)) plaintext) (s, t) =
      ((deliver out (blockEncrypt m c s plaintext).emitted (blockEncrypt m c s plaintext).result t).1,
        (s', (deliver out (blockEncrypt m c s plaintext).emitted (blockEncrypt m c s plaintext).result t).2)) := by
  unfold encrypt blockEncrypt
  by_cases hN : N = 0
  · simp only [if_pos hN]
    exact ⟨s, rfl⟩
  · simp only [if_neg hN, exec_bind, exec_ofR]
    rcases hp : Pad.pkcsPad N (chunksRem N plaintext) with e | lastBlock
    · exact ⟨s, rfl⟩
    · have key := exec_encLoop m c out (chunksExact N plaintext) s t
      dsimp only
      rcases hl : Model.encLoop m c s (chunksExact N plaintext) with ⟨bytes, r⟩
      rw [hl] at key
      cases r with
      | error e =>
        obtain ⟨s'', h⟩ := key
        refine ⟨s'', ?_⟩
        rw [h]
        dsimp only
        rw [deliver_error]
        rcases deliver out bytes (.ok ()) t with ⟨r', t'⟩
        cases r' <;> rfl
      | ok s1 =>
        obtain ⟨s'', h, hs⟩ := key
        rw [h]
        dsimp only
        rcases hd : deliver out bytes (.ok ()) t with ⟨r', t'⟩
        rw [hd] at hs
        cases r' with
        | error e =>
          refine ⟨s'', ?_⟩
          rcases m.encryptBlock c s1 lastBlock with e | ⟨o, s2⟩
          · simp [deliver_err _ hd]
          · simp [deliver_append, hd]
        | ok u =>
          obtain rfl := hs rfl
          simp only [exec_onFst, stepMode]
          rcases m.encryptBlock c s'' lastBlock with e | ⟨o, s2⟩
          · exact ⟨s'', by simp [deliver_ok _ hd]⟩
          · exact ⟨s2, by simp [deliver_append, hd, exec_outputAll]⟩

theorem exec_decLoop {N : Nat} {σ τ : Type} (m : Mode N σ) (c : BlockCipher N) (out : U8 → τ → R Unit × τ)
    (bs : List (Vector U8 N)) (pending : Option (Vector U8 N)) (s : σ) (t : τ) :
    ∃ s', Eff.exec (decLoop (fun b => onFst (stepMode (m.decryptBlock c) b)) (fun b => onSnd (out b)) pending bs) (s, t) =
      match deliver out (Model.decLoop m c s pending bs).1 (.ok ()) t with
      | (.ok _, t') => ((Model.decLoop m c s pending bs).2, (s', t'))
      | (.error e, t') => (.error e, (s', t')) := by
  induction bs generalizing s t pending with
  | nil => exact ⟨s, rfl⟩
  | cons b bs ih =>
    rw [decLoop, Model.decLoop, exec_bind, exec_onFst]
    simp only [stepMode]
    rcases h : m.decryptBlock c s b with e | ⟨o, s1⟩
    · exact ⟨s, rfl⟩
    · simp only [exec_bind]
      cases pending with
      | none =>
        simp only [exec_pure]
        exact ih (some o) s1 t
      | some p =>
        dsimp only
        rw [exec_bind, exec_outputAll]
        rcases hd : deliver out p.toList (.ok ()) t with ⟨r, t1⟩
        obtain ⟨s', h'⟩ := ih (some o) s1 t1
        cases r with
        | error e =>
          refine ⟨s1, ?_⟩
          rcases Model.decLoop m c s1 (some o) bs with ⟨bytes, r2⟩
          simp [deliver_append, hd]
        | ok u =>
          refine ⟨s', ?_⟩
          dsimp only
          rw [h']
          rcases Model.decLoop m c s1 (some o) bs with ⟨bytes, r2⟩
          simp [deliver_append, hd]

theorem exec_decrypt {N : Nat} {σ τ : Type} (m : Mode N σ) (c : BlockCipher N) (out : U8 → τ → R Unit × τ)
    (ciphertext : List U8) (s : σ) (t : τ) :
    ∃ s', Eff.exec (decrypt (fun b => onFst (stepMode (m.decryptBlock c) b)) (fun b => onSnd (out b)) ciphertext) (s, t) =
      ((deliver out (blockDecrypt m c s ciphertext).emitted (blockDecrypt m c s ciphertext).result t).1,
        (s', (deliver out (blockDecrypt m c s ciphertext).emitted (blockDecrypt m c s ciphertext).result t).2)) := by
  unfold decrypt blockDecrypt
  by_cases hN : N = 0
  · simp only [if_pos hN]
    exact ⟨s, rfl⟩
  · by_cases hr : chunksRem N ciphertext ≠ []
    · simp only [if_neg hN, if_pos hr]
      exact ⟨s, rfl⟩
    · simp only [if_neg hN, if_neg hr, exec_bind, exec_pure]
      obtain ⟨s', h⟩ := exec_decLoop m c out (chunksExact N ciphertext) none s t
      rw [h]
      refine ⟨s', ?_⟩
      rcases Model.decLoop m c s none (chunksExact N ciphertext) with ⟨bytes, r⟩
      dsimp only
      rcases hd : deliver out bytes (.ok ()) t with ⟨r', t'⟩
      cases r' with
      | error e =>
        rcases r with e' | _ | last
        · simp [deliver_err _ hd]
        · simp [deliver_err _ hd]
        · dsimp only
          rcases Pad.pkcsUnpad N last with e' | len
          · simp [deliver_err _ hd]
          · simp [deliver_append, hd]
      | ok u =>
        rcases r with e' | _ | last
        · simp [deliver_ok _ hd]
        · simp [deliver_ok _ hd]
        · simp only [exec_bind, exec_ofR]
          rcases Pad.pkcsUnpad N last with e' | len
          · simp [deliver_ok _ hd]
          · simp [deliver_append, hd, exec_outputAll]

theorem deliver_push (bytes : List U8) (r : R Unit) (v : List U8) : deliver push bytes r v = (r, v ++ bytes) := by
  induction bytes generalizing v with
  | nil => simp [deliver]
  | cons b bs ih => simp [deliver, push, ih]

theorem deliver_pushUpTo (k : Nat) (bytes : List U8) (r : R Unit) (v : List U8) (hv : v.length ≤ k) :
    deliver (pushUpTo k) bytes r v =
      (if v.length + bytes.length ≤ k then r else .error .index, (v ++ bytes).take k) := by
  induction bytes generalizing v with
  | nil => simp [deliver, hv, List.take_of_length_le hv]
  | cons b bs ih =>
    rw [deliver, pushUpTo]
    by_cases h : v.length < k
    · simp only [if_pos h]
      rw [ih _ (by simp; omega)]
      simp [Nat.add_assoc, Nat.add_comm 1]
    · have e : v.length = k := by omega
      simp only [if_neg h]
      rw [if_neg (by simp; omega), ← e]
      simp

/-! ## Order of events -/

theorem exec_loggedBytes {N : Nat} (bs : List U8) (log : List (Event N)) :
    Eff.exec (outputAll loggedByte bs) log = (.ok (), log ++ bytesOf bs) := by
  induction bs generalizing log with
  | nil => simp [outputAll, bytesOf]
  | cons b bs ih =>
    rw [outputAll, exec_bind]
    change Eff.exec (outputAll loggedByte bs) (log ++ [.byte b]) = _
    rw [ih]
    simp [bytesOf]

theorem exec_encLoop_logged {N : Nat} (f : Vector U8 N → Vector U8 N) (bs : List (Vector U8 N)) (log : List (Event N)) :
    Eff.exec (encLoop (loggedBlock f) loggedByte bs) log =
      (.ok (), log ++ bs.flatMap fun b => .block b :: bytesOf (f b).toList) := by
  induction bs generalizing log with
  | nil => simp [encLoop]
  | cons b bs ih =>
    rw [encLoop, exec_bind]
    change Eff.exec (outputAll loggedByte (f b).toList >>= fun _ => encLoop (loggedBlock f) loggedByte bs)
      (log ++ [.block b]) = _
    rw [exec_bind, exec_loggedBytes]
    dsimp only
    rw [ih]
    simp

theorem exec_encrypt_logged {N : Nat} (f : Vector U8 N → Vector U8 N) (plaintext : List U8)
    (bs : List (Vector U8 N)) (tail : List U8) (last : Vector U8 N) (e : plaintext = bs.flatMap Vector.toList ++ tail)
    (ht : tail.length < N) (hl : last.toList = Spec.pkcs7 N tail) (log : List (Event N)) :
    Eff.exec (encrypt (loggedBlock f) loggedByte plaintext) log =
      (.ok (), log ++ (bs ++ [last]).flatMap fun b => .block b :: bytesOf (f b).toList) := by
  obtain ⟨v, hv, hv'⟩ := Pad.pkcsPad_ok ht
  obtain rfl : v = last := Vector.toList_inj.1 (hv'.trans hl.symm)
  unfold encrypt
  rw [if_neg (by omega)]
  simp only [exec_bind, exec_ofR, exec_pure]
  rw [e, chunksRem_eq bs tail ht, chunksExact_eq bs tail ht, hv]
  dsimp only
  rw [exec_encLoop_logged]
  dsimp only
  change Eff.exec (outputAll loggedByte (f v).toList) (_ ++ [.block v]) = _
  rw [exec_loggedBytes]
  simp

theorem exec_decLoop_logged {N : Nat} (f : Vector U8 N → Vector U8 N) (bs : List (Vector U8 N)) (p : Vector U8 N)
    (log : List (Event N)) :
    Eff.exec (decLoop (loggedBlock f) loggedByte (some (f p)) bs) log =
      (.ok (some (f (bs.getLast?.getD p))),
        log ++ ((p :: bs).zip bs).flatMap fun pb => .block pb.2 :: bytesOf (f pb.1).toList) := by
  induction bs generalizing log p with
  | nil => simp [decLoop]
  | cons b bs ih =>
    rw [decLoop, exec_bind]
    change Eff.exec (outputAll loggedByte (f p).toList >>= fun _ => decLoop (loggedBlock f) loggedByte (some (f b)) bs)
      (log ++ [.block b]) = _
    rw [exec_bind, exec_loggedBytes]
    dsimp only
    rw [ih]
    simp [List.getLast?_cons]

theorem exec_decrypt_logged {N : Nat} (hN : 1 ≤ N) (f : Vector U8 N → Vector U8 N) (b : Vector U8 N) (bs : List (Vector U8 N))
    (log : List (Event N)) :
    Eff.exec (decrypt (loggedBlock f) loggedByte ((b :: bs).flatMap Vector.toList)) log =
      match Pad.pkcsUnpad N (f (bs.getLast?.getD b)) with
      | .ok len => (.ok (), log ++ .block b ::
          ((b :: bs).zip bs).flatMap (fun pb => .block pb.2 :: bytesOf (f pb.1).toList) ++
          bytesOf ((f (bs.getLast?.getD b)).toList.take len))
      | .error e => (.error e, log ++ .block b ::
          ((b :: bs).zip bs).flatMap (fun pb => .block pb.2 :: bytesOf (f pb.1).toList)) := by
  have h1 := chunksExact_eq (b :: bs) [] (by simp; omega)
  have h2 := chunksRem_eq (b :: bs) [] (by simp; omega)
  rw [List.append_nil] at h1 h2
  unfold decrypt
  rw [if_neg (by omega), h1, h2]
  simp only [exec_bind, exec_pure, ne_eq, not_true, if_false]
  have h3 : Eff.exec (decLoop (loggedBlock f) loggedByte none (b :: bs)) log =
      Eff.exec (decLoop (loggedBlock f) loggedByte (some (f b)) bs) (log ++ [.block b]) := rfl
  rw [h3, exec_decLoop_logged]
  dsimp only
  rw [exec_bind, exec_ofR]
  rcases Pad.pkcsUnpad N (f (bs.getLast?.getD b)) with e | len
  · simp
  · dsimp only
    rw [exec_loggedBytes]
    simp

/-! ## Lazy streams -/

theorem exec_streamNext {W : Type} (keys data : Eff W (Option U8)) (w : W) :
    Eff.exec (streamNext keys data) w = match Eff.exec data w with
      | (.error e, w) => (.error e, w)
      | (.ok none, w) => (.ok none, w)
      | (.ok (some d), w) =>
        match Eff.exec keys w with
        | (.error e, w) => (.error e, w)
        | (.ok none, w) => (.error .unwrap, w)
        | (.ok (some k), w) => (.ok (some (k ^^^ d)), w) := by
  rw [streamNext, exec_bind]
  rcases Eff.exec data w with ⟨e | _ | d, w1⟩
  · rfl
  · rfl
  · dsimp only
    rw [exec_bind]
    rcases Eff.exec keys w1 with ⟨e | _ | k, w2⟩ <;> rfl

theorem pull_keysFrom {δ : Type} (key : Nat → U8) (dnext : δ → R (Option U8) × δ) (n pos : Nat) (d : δ) :
    ∀ ds r d', pull (onSnd dnext) n ((), d) = (ds, r, ((), d')) →
    pull (streamNext (onFst (keysFrom key)) (onSnd dnext)) n (pos, d) =
      (ds.mapIdx (fun i b => key (pos + i) ^^^ b), r, (pos + ds.length, d')) := by
  induction n generalizing pos d with
  | zero =>
    intro ds r d' h
    simp only [pull, Prod.mk.injEq] at h
    obtain ⟨rfl, rfl, _, rfl⟩ := h
    rfl
  | succ n ih =>
    intro ds r d' h
    rw [pull, exec_onSnd] at h
    rw [pull, exec_streamNext, exec_onSnd]
    dsimp only at h ⊢
    rcases hd : dnext d with ⟨x, d1⟩
    rw [hd] at h
    rcases x with e | _ | b
    · simp only [Prod.mk.injEq] at h
      obtain ⟨rfl, rfl, _, rfl⟩ := h
      rfl
    · simp only [Prod.mk.injEq] at h
      obtain ⟨rfl, rfl, _, rfl⟩ := h
      rfl
    · dsimp only at h ⊢
      rw [exec_onFst]
      rcases hp : pull (onSnd dnext) n ((), d1) with ⟨ds1, r1, ⟨⟩, d2⟩
      rw [hp] at h
      simp only [Prod.mk.injEq] at h
      obtain ⟨rfl, rfl, _, rfl⟩ := h
      simp only [keysFrom]
      rw [ih (pos + 1) d1 _ _ _ hp]
      simp [List.mapIdx_cons, Nat.add_assoc, Nat.add_comm 1]

theorem pull_list {σ : Type} (next : KeyIter σ) (n : Nat) (s : σ) (data : List U8) :
    ∃ rest, pull (streamNext (onFst (keyIter next)) (onSnd listIter)) n (s, data) =
      ((streamEncrypt next s (data.take n)).yielded, (streamEncrypt next s (data.take n)).result,
        ((streamEncrypt next s (data.take n)).keys, rest)) ∧
      ((streamEncrypt next s (data.take n)).result = .ok () → rest = data.drop n) := by
  induction n generalizing s data with
  | zero => exact ⟨data, by simp [pull, streamEncrypt], by simp⟩
  | succ n ih =>
    rw [pull, exec_streamNext, exec_onSnd]
    cases data with
    | nil => exact ⟨[], rfl, by simp⟩
    | cons d ds =>
      simp only [listIter, exec_onFst, keyIter, List.take_succ_cons, streamEncrypt]
      rcases hn : next s with ⟨k, s1⟩
      cases k with
      | none => exact ⟨ds, rfl, by simp⟩
      | some k =>
        obtain ⟨rest, h1, h2⟩ := ih s1 ds
        exact ⟨rest, by simp [h1], by simpa using h2⟩

theorem sessions_eq {σ : Type} (next : KeyIter σ) (h : List (List U8 × Nat)) (s : σ) :
    sessions next h s =
      ((streamEncrypt next s (h.flatMap fun q => q.1.take q.2)).yielded,
        (streamEncrypt next s (h.flatMap fun q => q.1.take q.2)).result,
        (streamEncrypt next s (h.flatMap fun q => q.1.take q.2)).keys) := by
  induction h generalizing s with
  | nil => rfl
  | cons q h ih =>
    obtain ⟨data, n⟩ := q
    obtain ⟨rest, h1, _⟩ := pull_list next n s data
    rw [sessions, h1, List.flatMap_cons]
    rcases hr : (streamEncrypt next s (data.take n)).result with e | u
    · rw [streamEncrypt_append_fail s _ _ hr, hr]
    · rw [streamEncrypt_append s _ _ hr]
      dsimp only
      rw [ih]

end Verif.Model.Effects
