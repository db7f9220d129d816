import Verif.Model.Rc4Trace
import Verif.Spec.Rc4Leak
import Verif.Props.Modes

/-! # C134: what the places that RC4 uses of its table reveal, and what an object reveals about the past -/

namespace Verif.Props
open Verif Verif.Model
open _root_.Verif.Model.Rc4Trace (newT nextKeyT takeT ksaStepT)
open _root_.Verif.Spec.Rc4Leak (keyBytes tap Setup Tap)

/-- The key setup after `n` of its steps, with the places. -/
def ksaNT (key : List U8) (hk : 0 < key.length) (n : Nat) (hn : n ≤ 256) : (Vector U8 256 × U8) × List U8 :=
  Nat.fold n (fun i hi s => ksaStepT key hk i (by omega) s)
    ((Vector.ofFn fun i => BitVec.ofNat 8 i.val, 0#8), [])

theorem ksaNT_succ (key : List U8) (hk : 0 < key.length) (n : Nat) (hn : n + 1 ≤ 256) :
    ksaNT key hk (n + 1) hn = ksaStepT key hk n (by omega) (ksaNT key hk n (by omega)) := by
  simp [ksaNT, Nat.fold_succ]

theorem ksaNT_fst (key : List U8) (hk : 0 < key.length) (n : Nat) (hn : n ≤ 256) :
    (ksaNT key hk n hn).1 = Rc4.ksaN key hk n hn := by
  induction n with
  | zero => rfl
  | succ n ih =>
    have hstep : Rc4.ksaN key hk (n + 1) hn = Rc4.ksaStep key hk n (by omega) (Rc4.ksaN key hk n (by omega)) := by
      simp [Rc4.ksaN, Nat.fold_succ]
    rw [ksaNT_succ, hstep, ← ih (by omega)]
    rfl

/-- A key and its repetition do the same. -/
theorem ksaNT_double (key : List U8) (hk : 0 < key.length) (hk' : 0 < (key ++ key).length) (n : Nat) (hn : n ≤ 256) :
    ksaNT (key ++ key) hk' n hn = ksaNT key hk n hn := by
  induction n with
  | zero => rfl
  | succ n ih =>
    rw [ksaNT_succ, ksaNT_succ, ih]
    have e : (key ++ key)[n % (key ++ key).length]'(Nat.mod_lt _ hk') = key[n % key.length]'(Nat.mod_lt _ hk) := by
      have h2 : n % (key ++ key).length % key.length = n % key.length := by
        rw [List.length_append, ← Nat.mul_two]
        exact Nat.mod_mul_right_mod n key.length 2
      rw [List.getElem_append]
      split
      · rename_i h
        congr 1
        rw [← h2, Nat.mod_eq_of_lt h]
      · rename_i h
        congr 1
        have h3 := Nat.mod_lt n hk'
        rw [List.length_append] at h3 h h2 ⊢
        rw [← h2]
        generalize n % (key.length + key.length) = m at h h3 ⊢
        rw [Nat.mod_eq_sub_mod (by omega), Nat.mod_eq_of_lt (by omega)]
    unfold ksaStepT
    simp only [e]

theorem newT_ok (key : List U8) (hk : 0 < key.length) :
    newT key = .ok (⟨(ksaNT key hk 256 (by omega)).1.1, 0#8, 0#8⟩, (ksaNT key hk 256 (by omega)).2) := by
  rw [newT, dif_pos hk]
  simp only [ksaNT]

/-- C134: the record changes nothing: without it the results are those of `KeyStream::new` and of `next`, called any number of
times. -/
theorem C134_same (key : List U8) (ks : Rc4.KeyStream) (n : Nat) :
    (newT key).map Prod.fst = Rc4.new key ∧
    (takeT n ks).2.2 = rc4Step^[n] ks ∧
    ∀ m < n, (takeT n ks).1[m]? = (Rc4.next (rc4Step^[m] ks)).1 := by
  refine ⟨?_, ?_, ?_⟩
  · by_cases hk : 0 < key.length
    · rw [newT_ok key hk, Rc4.new_ok key hk, ← ksaNT_fst]
      simp only [Except.map]
    · rw [newT, Rc4.new, dif_neg hk, dif_neg hk]; rfl
  · induction n generalizing ks with
    | zero => rfl
    | succ n ih => exact ih _
  · induction n generalizing ks with
    | zero => intro m hm; omega
    | succ n ih =>
      intro m hm
      cases m with
      | zero => rfl
      | succ m => exact ih _ m (by omega)

/-- The observer knows the table, the last place and the first `n` bytes. -/
def SetupOk (key : List U8) (n : Nat) (s : (Vector U8 256 × U8) × List U8) : Prop :=
  s.2.length = n ∧
    let g := s.2.foldl Setup.see ⟨id, 0#8, 0#8, []⟩
    (∀ b, g.S b = Rc4.at8 s.1.1 b) ∧ g.last = s.1.2 ∧ g.i = BitVec.ofNat 8 n ∧
      g.key = (List.range n).map fun i => key.getD (i % key.length) 0#8

theorem setup_step (key : List U8) (hk : 0 < key.length) (n : Nat) (hn : n < 256) (s : (Vector U8 256 × U8) × List U8)
    (h : SetupOk key n s) : SetupOk key (n + 1) (ksaStepT key hk n hn s) := by
  obtain ⟨hlen, hS, hl, hi, hkey⟩ := h
  have hlt : n % key.length < key.length := Nat.mod_lt _ hk
  have hin : (BitVec.ofNat 8 n).toNat = n := by simp; omega
  have hSn : (s.2.foldl Setup.see ⟨id, 0#8, 0#8, []⟩).S (BitVec.ofNat 8 n) = s.1.1[n] := by
    rw [hS]; unfold Rc4.at8; simp only [hin]
  unfold SetupOk
  generalize hg : s.2.foldl Setup.see ⟨id, 0#8, 0#8, []⟩ = g at hS hl hi hkey hSn
  simp only [ksaStepT, List.foldl_append, List.foldl_cons, List.foldl_nil, hg, List.length_append, List.length_singleton]
  refine ⟨by omega, fun b => ?_, rfl, ?_, ?_⟩
  · simp only [Setup.see, Spec.Rc4Leak.swap, hi, hS]
    unfold Rc4.at8
    rw [Vector.getElem_swap]
    have e1 : b = BitVec.ofNat 8 n ↔ b.toNat = n := by rw [← BitVec.toNat_inj, hin]
    simp only [e1, ← BitVec.toNat_inj (x := b), hin]
  · simp only [Setup.see, hi]
    apply BitVec.eq_of_toNat_eq
    simp
  · simp only [Setup.see, hi, hkey, hSn, hl, List.range_succ, List.map_append, List.map_cons, List.map_nil]
    congr 2
    rw [List.getD_eq_getElem?_getD, List.getElem?_eq_getElem hlt, Option.getD_some]
    rw [BitVec.add_sub_cancel, BitVec.add_sub_cancel]

theorem setup_inv (key : List U8) (hk : 0 < key.length) (n : Nat) (hn : n ≤ 256) :
    SetupOk key n (ksaNT key hk n hn) := by
  induction n with
  | zero =>
    refine ⟨rfl, fun b => ?_, rfl, rfl, rfl⟩
    have hb := b.isLt
    simp [ksaNT, Rc4.at8]
  | succ n ih =>
    rw [ksaNT_succ]
    exact setup_step key hk n (by omega) _ (ih (by omega))

attribute [local irreducible] ksaNT

/-- C134: there are 256 places in the key setup, and the bytes computed from them are those of the key, repeated. -/
theorem C134_setup (key : List U8) (ks : Rc4.KeyStream) (places : List U8) (h : newT key = .ok (ks, places)) :
    places.length = 256 ∧ keyBytes places = (List.range 256).map fun i => key.getD (i % key.length) 0#8 := by
  have hk : 0 < key.length := by
    by_contra hk
    rw [newT, dif_neg hk] at h
    cases h
  rw [newT_ok key hk] at h
  obtain ⟨h1, _, _, _, h2⟩ := setup_inv key hk 256 (by omega)
  have e := congrArg Prod.snd (Except.ok.inj h)
  simp only at e
  rw [← e]
  exact ⟨h1, h2⟩

/-- C134: so they are the key, when its length is known and at most 256. -/
theorem C134_key (key : List U8) (ks : Rc4.KeyStream) (places : List U8) (h : newT key = .ok (ks, places))
    (hl : key.length ≤ 256) : (keyBytes places).take key.length = key := by
  rw [(C134_setup key ks places h).2]
  apply List.ext_getElem
  · simp [hl]
  · intro i h1 h2
    simp [List.getElem_take, Nat.mod_eq_of_lt h2, h2]

/-- C134: two keys of at most 256 bytes that use the same places make the same key stream. -/
theorem C134_places_determine_object (key key' : List U8) (ks ks' : Rc4.KeyStream) (places : List U8)
    (h : newT key = .ok (ks, places)) (h' : newT key' = .ok (ks', places)) : ks = ks' := by
  have hk : 0 < key.length := by
    by_contra hk
    rw [newT, dif_neg hk] at h
    cases h
  have hk' : 0 < key'.length := by
    by_contra hk
    rw [newT, dif_neg hk] at h'
    cases h'
  obtain ⟨_, a1, _⟩ := setup_inv key hk 256 (by omega)
  obtain ⟨_, a2, _⟩ := setup_inv key' hk' 256 (by omega)
  rw [newT_ok key hk] at h
  rw [newT_ok key' hk'] at h'
  have e := Except.ok.inj h
  have e' := Except.ok.inj h'
  rw [Prod.mk.injEq] at e e'
  rw [e.2] at a1
  rw [e'.2] at a2
  rw [← e.1, ← e'.1]
  congr 1
  ext i hi
  have := (a1 (BitVec.ofNat 8 i)).symm.trans (a2 (BitVec.ofNat 8 i))
  have hin : (BitVec.ofNat 8 i).toNat = i := by simp; omega
  unfold Rc4.at8 at this
  simp only [hin] at this
  rw [this]

/-! ## The places of the key bytes -/

/-- What the observer knows is true. -/
def TapOk (g : Tap) (k : Rc4.KeyStream) : Prop :=
  g.x = k.x ∧ g.y = k.y ∧ ∀ b v, g.known b = some v → Rc4.at8 k.state b = v

theorem at8_swap8 (t : Vector U8 256) (a b c : U8) :
    Rc4.at8 (Rc4.swap8 t a b) c = if c = a then Rc4.at8 t b else if c = b then Rc4.at8 t a else Rc4.at8 t c := by
  unfold Rc4.at8 Rc4.swap8
  rw [Vector.getElem_swap]
  simp only [← BitVec.toNat_inj]

theorem tap_step (g : Tap) (k : Rc4.KeyStream) (h : TapOk g k) :
    TapOk (g.see (nextKeyT k).2) (nextKeyT k).1.2 ∧ ((g.see (nextKeyT k).2).known (k.x + 1#8)).isSome ∧
      ∀ b, (g.known b).isSome → ((g.see (nextKeyT k).2).known b).isSome := by
  obtain ⟨h1, h2, h3⟩ := h
  simp only [nextKeyT, Tap.see, h1, h2]
  refine ⟨⟨rfl, rfl, fun b v hb => ?_⟩, by simp, fun b hb => ?_⟩
  · simp only [at8_swap8] at hb ⊢
    by_cases e1 : b = k.x + 1#8
    · subst e1
      simp only [if_pos] at hb ⊢
      have hb' := Option.some.inj hb
      rw [← hb']
      by_cases e2 : Rc4.at8 k.state (k.x + 1#8) + k.y = k.x + 1#8
      · simp only [e2, if_true]
        have e3 : k.x + 1#8 - k.y = Rc4.at8 k.state (k.x + 1#8) := by
          have := congrArg (· - k.y) e2
          simp only [BitVec.add_sub_cancel] at this
          exact this.symm
        rw [e3, BitVec.add_sub_cancel]
      · simp only [e2, if_false]
        generalize Rc4.at8 k.state (k.x + 1#8) = p
        generalize Rc4.at8 k.state (p + k.y) = q
        rw [BitVec.add_sub_cancel, BitVec.add_sub_cancel]
    · simp only [e1, if_false] at hb ⊢
      by_cases e2 : b = Rc4.at8 k.state (k.x + 1#8) + k.y
      · simp only [← e2, if_true] at hb ⊢
        rw [e2, BitVec.add_sub_cancel] at hb
        exact Option.some.inj hb
      · simp only [e2, if_false] at hb ⊢
        exact h3 b v hb
  · split
    · rfl
    · split
      · rfl
      · exact hb

theorem tap_run (n : Nat) (g : Tap) (k : Rc4.KeyStream) (h : TapOk g k) :
    TapOk ((takeT n k).2.1.foldl Tap.see g) (takeT n k).2.2 ∧
    (∀ b, (g.known b).isSome → (((takeT n k).2.1.foldl Tap.see g).known b).isSome) ∧
    ∀ m, 0 < m → m ≤ n → (((takeT n k).2.1.foldl Tap.see g).known (k.x + BitVec.ofNat 8 m)).isSome := by
  induction n generalizing g k with
  | zero => exact ⟨h, fun _ hb => hb, fun m h0 hm => by omega⟩
  | succ n ih =>
    obtain ⟨a1, a2, a3⟩ := tap_step g k h
    obtain ⟨b1, b2, b3⟩ := ih (g.see (nextKeyT k).2) (nextKeyT k).1.2 a1
    refine ⟨b1, fun b hb => b2 b (a3 b hb), fun m h0 hm => ?_⟩
    rcases Nat.lt_or_ge 1 m with hm1 | hm1
    · have := b3 (m - 1) (by omega) (by omega)
      have e : (nextKeyT k).1.2.x + BitVec.ofNat 8 (m - 1) = k.x + BitVec.ofNat 8 m := by
        show k.x + 1#8 + BitVec.ofNat 8 (m - 1) = _
        rw [BitVec.add_assoc]
        congr 1
        apply BitVec.eq_of_toNat_eq
        simp
        omega
      rw [e] at this
      exact this
    · have e : m = 1 := by omega
      subst e
      exact b2 _ a2

/-- C134: whoever sees the places of the first bytes of a new object, at least 256 of them, and nothing else knows the whole
object afterwards: its table and both counters. -/
theorem C134_stream (key : List U8) (ks : Rc4.KeyStream) (hk : Rc4.new key = .ok ks) (n : Nat) (hn : 256 ≤ n) :
    let g := tap (takeT n ks).2.1
    g.x = (rc4Step^[n] ks).x ∧ g.y = (rc4Step^[n] ks).y ∧
      ∀ b : U8, g.known b = some ((rc4Step^[n] ks).state[b.toNat]'b.isLt) := by
  have hpos : 0 < key.length := by
    by_contra h0
    rw [Rc4.new, dif_neg h0] at hk
    cases hk
  rw [Rc4.new_ok key hpos] at hk
  have e := Except.ok.inj hk
  have hok : TapOk ⟨fun _ => none, 0#8, 0#8⟩ ks := by
    rw [← e]
    exact ⟨rfl, rfl, fun _ _ h => nomatch h⟩
  obtain ⟨⟨a1, a2, a3⟩, _, b⟩ := tap_run n _ ks hok
  rw [(C134_same key ks n).2.1] at a1 a2 a3
  refine ⟨a1, a2, fun c => ?_⟩
  have hx : ks.x = 0#8 := by rw [← e]
  have hsome : ((tap (takeT n ks).2.1).known c).isSome := by
    by_cases h0 : c.toNat = 0
    · have := b 256 (by omega) hn
      rw [hx] at this
      have e : c = 0#8 + BitVec.ofNat 8 256 := BitVec.eq_of_toNat_eq (by simpa using h0)
      rw [e]; exact this
    · have := b c.toNat (by omega) (by have := c.isLt; omega)
      rw [hx] at this
      have e : c = 0#8 + BitVec.ofNat 8 c.toNat := by simp
      rw [e]; exact this
  obtain ⟨v, hv⟩ := Option.isSome_iff_exists.1 hsome
  rw [hv, ← a3 c v hv]
  rfl

/-! ## The past of an object -/

/-- The object before its last byte. -/
def rc4Back (k : Rc4.KeyStream) : Rc4.KeyStream :=
  let st := Rc4.swap8 k.state k.x k.y
  ⟨st, k.x - 1#8, k.y - Rc4.at8 st k.x⟩

/-- C134: an object shows its past: from it all bytes that were ever drawn from it can be computed, the last one first.
(So there is no forward secrecy.) -/
theorem C134_past (ks : Rc4.KeyStream) (n m : Nat) (hm : m ≤ n) : rc4Back^[m] (rc4Step^[n] ks) = rc4Step^[n - m] ks := by
  have hinv : Function.LeftInverse rc4Back rc4Step := by
    rintro ⟨S, x, y⟩
    have e : Rc4.swap8 (Rc4.swap8 S (x + 1#8) (Rc4.at8 S (x + 1#8) + y)) (x + 1#8) (Rc4.at8 S (x + 1#8) + y) = S := by
      unfold Rc4.swap8
      simp
    simp only [rc4Back, rc4Step, Rc4.next, Rc4.nextKey]
    rw [e]
    congr 1
    · exact BitVec.add_sub_cancel x 1#8
    · show Rc4.at8 S (x + 1#8) + y - Rc4.at8 S (x + 1#8) = y
      rw [BitVec.add_comm, BitVec.add_sub_cancel]
  have : rc4Step^[n] ks = rc4Step^[m] (rc4Step^[n - m] ks) := by
    rw [← Function.iterate_add_apply]
    congr 1
    omega
  rw [this]
  exact (hinv.iterate m) _

/-- C134: together: the places of the first bytes give away all bytes of the object, those before and those to come. -/
theorem C134_all (key key' : List U8) (ks ks' : Rc4.KeyStream) (hk : Rc4.new key = .ok ks) (hk' : Rc4.new key' = .ok ks')
    (n : Nat) (hn : 256 ≤ n) (h : (takeT n ks).2.1 = (takeT n ks').2.1) : ks = ks' := by
  obtain ⟨a1, a2, a3⟩ := C134_stream key ks hk n hn
  obtain ⟨b1, b2, b3⟩ := C134_stream key' ks' hk' n hn
  rw [h] at a1 a2 a3
  have e : rc4Step^[n] ks = rc4Step^[n] ks' := by
    have e1 := a1.symm.trans b1
    have e2 := a2.symm.trans b2
    have e3 : (rc4Step^[n] ks).state = (rc4Step^[n] ks').state := by
      ext i hi
      have := Option.some.inj ((a3 (BitVec.ofNat 8 i)).symm.trans (b3 (BitVec.ofNat 8 i)))
      have hin : (BitVec.ofNat 8 i).toNat = i := by simp; omega
      simp only [hin] at this
      rw [this]
    generalize rc4Step^[n] ks = k at *
    generalize rc4Step^[n] ks' = k' at *
    obtain ⟨S, x, y⟩ := k
    obtain ⟨S', x', y'⟩ := k'
    simp only at e1 e2 e3
    rw [e1, e2, e3]
  exact (C89_rc4_step_injective.iterate n) e

/-! ## A concrete key -/

/-- The key "Key" of the usual test vector. -/
def keyKey : List U8 := [75#8, 101#8, 121#8]

set_option maxRecDepth 20000 in
/-- The key is found again, and all applies. -/
example : ∃ ks places, newT keyKey = .ok (ks, places) ∧ (keyBytes places).take 3 = keyKey ∧ (tap (takeT 256 ks).2.1).known 7#8 = some ((rc4Step^[256] ks).state[7]) ∧
    rc4Back^[256] (rc4Step^[256] ks) = ks := by
  have hk : 0 < keyKey.length := by decide
  refine ⟨_, _, newT_ok keyKey hk, C134_key keyKey _ _ (newT_ok keyKey hk) (by decide),
    (C134_stream keyKey _ ?_ 256 (by decide)).2.2 7#8, C134_past _ 256 256 (by decide)⟩
  rw [Rc4.new_ok keyKey hk, ← ksaNT_fst]

/-- The places of the setup for `keyKey` begin with 75, 177, 44. -/
example : (newT keyKey).toOption.map (fun r => r.2.take 3) = some [75#8, 177#8, 44#8] := by decide +kernel

/-- C134_places_determine_object and C134_all applied: a key and its repetition use the same places. -/
example : ∀ ks ks' places, newT keyKey = .ok (ks, places) → newT (keyKey ++ keyKey) = .ok (ks', places) → ks = ks' :=
  fun _ _ _ h h' => C134_places_determine_object keyKey (keyKey ++ keyKey) _ _ _ h h'
example : ∃ ks places, newT keyKey = .ok (ks, places) ∧ newT (keyKey ++ keyKey) = .ok (ks, places) :=
  ⟨_, _, newT_ok keyKey (by decide), by
    rw [newT_ok (keyKey ++ keyKey) (by decide), ksaNT_double keyKey (by decide) (by decide) 256 (by decide)]⟩
example : ∀ ks ks', Rc4.new keyKey = .ok ks → Rc4.new (keyKey ++ keyKey) = .ok ks' →
    (takeT 256 ks).2.1 = (takeT 256 ks').2.1 → ks = ks' :=
  fun ks ks' h h' e => C134_all keyKey (keyKey ++ keyKey) ks ks' h h' 256 (by decide) e

end Verif.Props
