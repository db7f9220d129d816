import Verif.Props.Extend
import Mathlib.Data.Finite.Prod

/-! # C161: which hash values a suffix leaves unchanged -/

namespace Verif.Props
open Verif

namespace FixedPoint
open Extend
open _root_.Verif.Spec.Sha (Five Eight Family sha1Rounds sha2Rounds sha1Compress sha2Compress sha1W sha2W word bytes pad
  sha2Hash family32 family64)
open _root_.Verif.Spec.Md (Four steps)

instance (n : Nat) : Finite (BitVec n) := Finite.of_injective BitVec.toFin fun _ _ h => BitVec.toFin_inj.1 h
instance (n : Nat) : Finite (Eight n) :=
  Finite.of_injective (fun s => (s.a, s.b, s.c, s.d, s.e, s.f, s.g, s.h)) fun s t h => by
    cases s; cases t; simpa using h
instance : Finite Five := Finite.of_injective (fun s => (s.a, s.b, s.c, s.d, s.e)) fun s t h => by
  cases s; cases t; simpa using h
instance : Finite Four := Finite.of_injective (fun s => (s.a, s.b, s.c, s.d)) fun s t h => by
  cases s; cases t; simpa using h

theorem rotateLeft_inj' {n : Nat} (x y : BitVec n) (k : Nat) (h : x.rotateLeft k = y.rotateLeft k) : x = y := by
  rcases Nat.eq_zero_or_pos n with rfl | hn
  · exact Subsingleton.elim _ _
  · apply BitVec.eq_of_getElem_eq
    intro i hi
    have hk : k % n < n := Nat.mod_lt _ hn
    have key : ∀ z : BitVec n, z[i] = (z.rotateLeft k).getLsbD ((i + k % n) % n) := by
      intro z
      rw [BitVec.getLsbD_rotateLeft, Bool.cond_decide]
      rcases Nat.lt_or_ge (i + k % n) n with h1 | h1
      · rw [Nat.mod_eq_of_lt h1, if_neg (by omega), decide_eq_true h1, Bool.true_and, Nat.add_sub_cancel,
          BitVec.getLsbD_eq_getElem hi]
      · rw [Nat.mod_eq_sub_mod h1, Nat.mod_eq_of_lt (by omega), if_pos (by omega),
          show n - k % n + (i + k % n - n) = i by omega, BitVec.getLsbD_eq_getElem hi]
    rw [key, key, h]

theorem sha2Rounds_injective {n : Nat} (F : Family n) (W : Nat → BitVec n) (t : Nat) :
    Function.Injective fun s => sha2Rounds F W s t := by
  induction t with
  | zero => exact fun _ _ h => h
  | succ t ih =>
    intro s s' h
    apply ih
    simp only [sha2Rounds, Eight.mk.injEq] at h ⊢
    generalize sha2Rounds F W s t = r at *
    generalize sha2Rounds F W s' t = r' at *
    obtain ⟨a, b, c, d, e, f, g, k⟩ := r
    obtain ⟨a', b', c', d', e', f', g', k'⟩ := r'
    simp only at h
    obtain ⟨h1, rfl, rfl, rfl, h2, rfl, rfl, rfl⟩ := h
    simp only [BitVec.add_left_inj] at h1
    subst h1
    simp only [BitVec.add_left_inj] at h2
    subst h2
    rfl

theorem sha1Rounds_injective (W : Nat → U32) (t : Nat) : Function.Injective fun s => sha1Rounds W s t := by
  induction t with
  | zero => exact fun _ _ h => h
  | succ t ih =>
    intro s s' h
    apply ih
    simp only [sha1Rounds, Five.mk.injEq] at h ⊢
    generalize sha1Rounds W s t = r at *
    generalize sha1Rounds W s' t = r' at *
    obtain ⟨a, b, c, d, e⟩ := r
    obtain ⟨a', b', c', d', e'⟩ := r'
    simp only at h
    obtain ⟨h1, rfl, h2, rfl, rfl⟩ := h
    obtain rfl := rotateLeft_inj' _ _ _ h2
    simp only [BitVec.add_left_inj, BitVec.add_right_inj] at h1
    subst h1
    rfl

/-- A step whose new word determines `a` when the other three are known. -/
def Undoable (new : Nat → (Nat → U32) → Four → U32) : Prop :=
  ∀ t X a a' b c d, new t X ⟨a, b, c, d⟩ = new t X ⟨a', b, c, d⟩ → a = a'

theorem steps_injective {new : Nat → (Nat → U32) → Four → U32} (hnew : Undoable new) (X : Nat → U32) (t : Nat) :
    Function.Injective fun s => steps new X s t := by
  induction t with
  | zero => exact fun _ _ h => h
  | succ t ih =>
    intro s s' h
    apply ih
    simp only [steps, Four.mk.injEq] at h ⊢
    generalize steps new X s t = r at *
    generalize steps new X s' t = r' at *
    obtain ⟨a, b, c, d⟩ := r
    obtain ⟨a', b', c', d'⟩ := r'
    simp only at h
    obtain ⟨rfl, h1, rfl, rfl⟩ := h
    obtain rfl := hnew t X _ _ _ _ _ h1
    rfl

theorem md4_undoable : Undoable Spec.Md.md4New := by
  intro t X a a' b c d h
  unfold Spec.Md.md4New at h
  simpa only [BitVec.add_left_inj] using rotateLeft_inj' _ _ _ h

theorem md5_undoable : Undoable Spec.Md.md5New := by
  intro t X a a' b c d h
  unfold Spec.Md.md5New at h
  simp only [BitVec.add_right_inj] at h
  simpa only [BitVec.add_left_inj] using rotateLeft_inj' _ _ _ h

theorem bv_add_eq_right {n : Nat} (x y : BitVec n) : x + y = y ↔ x = 0#n := by
  constructor
  · intro h
    have : x + y = 0#n + y := by rw [h, BitVec.zero_add]
    simpa only [BitVec.add_left_inj] using this
  · rintro rfl
    rw [BitVec.zero_add]

end FixedPoint
open FixedPoint Extend
open _root_.Verif.Spec.Sha (Five Eight Family sha1Compress sha2Compress word bytes pad family32 family64)
open _root_.Verif.Spec.Md (Four)

/-- C161: for every block there is exactly one value of the chaining variables that SHA-224/256 or SHA-384/512 does not change
when it processes the block. -/
theorem C161_block_sha2 {n : Nat} (F : Family n) (M : Nat → BitVec n) : ∃! H : Eight n, sha2Compress F H M = H := by
  have hb := Finite.injective_iff_bijective.1 (sha2Rounds_injective F (Spec.Sha.sha2W F M) F.rounds)
  have key : ∀ H : Eight n, sha2Compress F H M = H ↔ Spec.Sha.sha2Rounds F (Spec.Sha.sha2W F M) H F.rounds =
      ⟨0#n, 0#n, 0#n, 0#n, 0#n, 0#n, 0#n, 0#n⟩ := by
    intro H
    unfold sha2Compress
    simp only
    generalize Spec.Sha.sha2Rounds F (Spec.Sha.sha2W F M) H F.rounds = r
    obtain ⟨a, b, c, d, e, f, g, h⟩ := H
    obtain ⟨a', b', c', d', e', f', g', h'⟩ := r
    simp only [Eight.mk.injEq, bv_add_eq_right]
  simp only [key]
  exact hb.existsUnique _

/-- C161: the same for SHA-1. -/
theorem C161_block_sha1 (M : Nat → U32) : ∃! H : Five, sha1Compress H M = H := by
  have hb := Finite.injective_iff_bijective.1 (sha1Rounds_injective (Spec.Sha.sha1W M) 80)
  have key : ∀ H : Five, sha1Compress H M = H ↔ Spec.Sha.sha1Rounds (Spec.Sha.sha1W M) H 80 =
      ⟨0#32, 0#32, 0#32, 0#32, 0#32⟩ := by
    intro H
    unfold sha1Compress
    simp only
    generalize Spec.Sha.sha1Rounds (Spec.Sha.sha1W M) H 80 = r
    obtain ⟨a, b, c, d, e⟩ := H
    obtain ⟨a', b', c', d', e'⟩ := r
    simp only [Five.mk.injEq, bv_add_eq_right]
  simp only [key]
  exact hb.existsUnique _

theorem fixed_md {new : Nat → (Nat → U32) → Four → U32} (hnew : Undoable new) (n : Nat) (X : Nat → U32) :
    ∃! H : Four, (⟨H.a + (Spec.Md.steps new X H n).a, H.b + (Spec.Md.steps new X H n).b,
      H.c + (Spec.Md.steps new X H n).c, H.d + (Spec.Md.steps new X H n).d⟩ : Four) = H := by
  have hb := Finite.injective_iff_bijective.1 (steps_injective hnew X n)
  have key : ∀ H : Four, ((⟨H.a + (Spec.Md.steps new X H n).a, H.b + (Spec.Md.steps new X H n).b,
      H.c + (Spec.Md.steps new X H n).c, H.d + (Spec.Md.steps new X H n).d⟩ : Four) = H) ↔
      Spec.Md.steps new X H n = ⟨0#32, 0#32, 0#32, 0#32⟩ := by
    intro H
    generalize Spec.Md.steps new X H n = r
    obtain ⟨a, b, c, d⟩ := H
    obtain ⟨a', b', c', d'⟩ := r
    simp only [Four.mk.injEq, BitVec.add_comm _ a', BitVec.add_comm _ b', BitVec.add_comm _ c', BitVec.add_comm _ d',
      bv_add_eq_right]
  simp only [key]
  exact hb.existsUnique _

theorem length_padTail {N L : Nat} (len : Nat) (x : List U8) (hN : x.length + L + 1 ≤ N) :
    (padTail N L len x).length = N := by
  have h1 : x.length % N = x.length := Nat.mod_eq_of_lt (by omega)
  have h2 : (2 * N - 1 - L - x.length) % N = N - 1 - L - x.length := by
    rw [Nat.mod_eq_sub_mod (by omega), Nat.mod_eq_of_lt (by omega)]; omega
  unfold padTail
  rw [h1, h2]
  simp only [List.length_append, List.length_cons, List.length_replicate, length_natToBE]
  omega

theorem bytes_inj {n : Nat} (hn : n = 8 * (n / 8)) (a b : List (BitVec n)) (hl : a.length = b.length)
    (h : bytes a = bytes b) : a = b := by
  apply List.ext_getElem hl
  intro i h1 h2
  rw [← word_bytes hn a i h1, ← word_bytes hn b i h2, h]

theorem length_bytes {n : Nat} (ws : List (BitVec n)) : (bytes ws).length = ws.length * (n / 8) := by
  unfold bytes
  induction ws with
  | nil => simp
  | cons w ws ih => rw [List.flatMap_cons, List.length_append, ih, length_natToBE, List.length_cons]; ring

/-- The bytes of a list as an array. -/
def arrayOf (N : Nat) (l : List U8) : Vector U8 N := Vector.ofFn fun i => l.getD i 0#8

theorem toList_arrayOf (N : Nat) (l : List U8) (h : l.length = N) : (arrayOf N l).toList = l := by
  apply List.ext_getElem
  · simp [h]
  · intro i h1 h2
    simp [arrayOf, List.getD_eq_getElem?_getD, List.getElem?_eq_getElem h2]

theorem eight_ext {n : Nat} {r H : Eight n} (h : r.a = H.a ∧ r.b = H.b ∧ r.c = H.c ∧ r.d = H.d ∧ r.e = H.e ∧ r.f = H.f ∧
    r.g = H.g ∧ r.h = H.h) : r = H := by
  cases r; cases H; simpa using h

theorem five_ext {r H : Five} (h : r.a = H.a ∧ r.b = H.b ∧ r.c = H.c ∧ r.d = H.d ∧ r.e = H.e) : r = H := by
  cases r; cases H; simpa using h

theorem four_ext {r H : Four} (h : r.a = H.a ∧ r.b = H.b ∧ r.c = H.c ∧ r.d = H.d) : r = H := by
  cases r; cases H; simpa using h

theorem fixed256 (len : Nat) (x : List U8) (hx : x.length ≤ 55) : ∃ F : Eight 32, ∀ H : Eight 32,
    extend256 (bytes [H.a, H.b, H.c, H.d, H.e, H.f, H.g, H.h]) len x = bytes [H.a, H.b, H.c, H.d, H.e, H.f, H.g, H.h] ↔
      H = F := by
  have hw : ∀ (ws : List U32) (i : Nat) (hi : i < ws.length), word 32 (bytes ws) (4 * i) = ws[i] :=
    fun ws i hi => word_bytes (n := 32) rfl ws i hi
  obtain ⟨F, h1, h2⟩ := C161_block_sha2 family32 fun t => word 32 (padTail 64 8 (padLen 64 8 len) x) (4 * t)
  refine ⟨F, fun H => ?_⟩
  have e : ∀ H0, Spec.Sha.sha2Hash family32 H0 (padTail 64 8 (padLen 64 8 len) x) 1 =
      sha2Compress family32 H0 fun t => word 32 (padTail 64 8 (padLen 64 8 len) x) (4 * t) := by
    intro H0
    rw [Spec.Sha.sha2Hash, Spec.Sha.sha2Hash]
    simp
  unfold extend256
  simp only
  rw [length_padTail _ x (by omega), e, hw _ 0 (by simp), hw _ 1 (by simp), hw _ 2 (by simp), hw _ 3 (by simp),
    hw _ 4 (by simp), hw _ 5 (by simp), hw _ 6 (by simp), hw _ 7 (by simp)]
  simp only [List.getElem_cons_zero, List.getElem_cons_succ]
  constructor
  · intro h
    apply h2
    have h3 := bytes_inj rfl _ _ (by simp) h
    simp only [List.cons.injEq, and_true] at h3
    exact eight_ext h3
  · rintro rfl
    obtain ⟨a, b, c, d, e, f, g, k⟩ := H
    simp only at h1 ⊢
    rw [h1]

theorem fixed512 (len : Nat) (x : List U8) (hx : x.length ≤ 111) : ∃ F : Eight 64, ∀ H : Eight 64,
    extend512 (bytes [H.a, H.b, H.c, H.d, H.e, H.f, H.g, H.h]) len x = bytes [H.a, H.b, H.c, H.d, H.e, H.f, H.g, H.h] ↔
      H = F := by
  have hw : ∀ (ws : List U64) (i : Nat) (hi : i < ws.length), word 64 (bytes ws) (8 * i) = ws[i] :=
    fun ws i hi => word_bytes (n := 64) rfl ws i hi
  obtain ⟨F, h1, h2⟩ := C161_block_sha2 family64 fun t => word 64 (padTail 128 16 (padLen 128 16 len) x) (8 * t)
  refine ⟨F, fun H => ?_⟩
  have e : ∀ H0, Spec.Sha.sha2Hash family64 H0 (padTail 128 16 (padLen 128 16 len) x) 1 =
      sha2Compress family64 H0 fun t => word 64 (padTail 128 16 (padLen 128 16 len) x) (8 * t) := by
    intro H0
    rw [Spec.Sha.sha2Hash, Spec.Sha.sha2Hash]
    simp
  unfold extend512
  simp only
  rw [length_padTail _ x (by omega), e, hw _ 0 (by simp), hw _ 1 (by simp), hw _ 2 (by simp), hw _ 3 (by simp),
    hw _ 4 (by simp), hw _ 5 (by simp), hw _ 6 (by simp), hw _ 7 (by simp)]
  simp only [List.getElem_cons_zero, List.getElem_cons_succ]
  constructor
  · intro h
    apply h2
    have h3 := bytes_inj rfl _ _ (by simp) h
    simp only [List.cons.injEq, and_true] at h3
    exact eight_ext h3
  · rintro rfl
    obtain ⟨a, b, c, d, e, f, g, k⟩ := H
    simp only at h1 ⊢
    rw [h1]

theorem fixed1 (len : Nat) (x : List U8) (hx : x.length ≤ 55) : ∃ F : Five, ∀ H : Five,
    extend1 (bytes [H.a, H.b, H.c, H.d, H.e]) len x = bytes [H.a, H.b, H.c, H.d, H.e] ↔ H = F := by
  have hw : ∀ (ws : List U32) (i : Nat) (hi : i < ws.length), word 32 (bytes ws) (4 * i) = ws[i] :=
    fun ws i hi => word_bytes (n := 32) rfl ws i hi
  obtain ⟨F, h1, h2⟩ := C161_block_sha1 fun t => word 32 (padTail 64 8 (padLen 64 8 len) x) (4 * t)
  refine ⟨F, fun H => ?_⟩
  have e : ∀ H0, sha1From H0 (padTail 64 8 (padLen 64 8 len) x) 1 =
      sha1Compress H0 fun t => word 32 (padTail 64 8 (padLen 64 8 len) x) (4 * t) := by
    intro H0
    rw [sha1From, sha1From]
    simp
  unfold extend1
  simp only
  rw [length_padTail _ x (by omega), e, hw _ 0 (by simp), hw _ 1 (by simp), hw _ 2 (by simp), hw _ 3 (by simp),
    hw _ 4 (by simp)]
  simp only [List.getElem_cons_zero, List.getElem_cons_succ]
  constructor
  · intro h
    apply h2
    have h3 := bytes_inj rfl _ _ (by simp) h
    simp only [List.cons.injEq, and_true] at h3
    exact five_ext h3
  · rintro rfl
    obtain ⟨a, b, c, d, e⟩ := H
    simp only at h1 ⊢
    rw [h1]

/-- C161: for every length of a message and every suffix of at most 55 bytes there is one SHA-256 value `d` such that
appending the suffix to a padded message of that length leaves the hash value as it is exactly if the hash value is `d`. -/
theorem C161_sha256 (len : Nat) (x : List U8) (hx : x.length ≤ 55) : ∃ d : Model.Sha.HashValue 32, ∀ m : List U8,
    m.length = len → (pad 64 8 m ++ x).length < 2 ^ 61 →
    (Model.Sha.sha256 (pad 64 8 m ++ x) = Model.Sha.sha256 m ↔ Model.Sha.sha256 m = .ok d) := by
  obtain ⟨F, hF⟩ := fixed256 len x hx
  refine ⟨arrayOf 32 (bytes [F.a, F.b, F.c, F.d, F.e, F.f, F.g, F.h]), ?_⟩
  rintro m rfl hm
  obtain ⟨d, d', h1, h2, h3⟩ := C90_sha256 m x hm
  obtain ⟨d0, h4, h5⟩ := C26_sha256 m (by rw [List.length_append, length_pad, padLen] at hm; omega)
  obtain rfl := Except.ok.inj (h1.symm.trans h4)
  have key := hF (Spec.Sha.sha2Hash family32 Spec.Sha.init256 (pad 64 8 m) ((pad 64 8 m).length / 64))
  have h6 : d.toList = bytes [_, _, _, _, _, _, _, _] := h5
  generalize Spec.Sha.sha2Hash family32 Spec.Sha.init256 (pad 64 8 m) ((pad 64 8 m).length / 64) = H at *
  rw [← h6, ← h3] at key
  rw [h1, h2, Except.ok.injEq, Except.ok.injEq, ← Vector.toList_inj, key, ← Vector.toList_inj,
    toList_arrayOf _ _ (by rw [length_bytes]; rfl), h6]
  constructor
  · rintro rfl; rfl
  · intro h
    have h7 := bytes_inj rfl _ _ (by simp) h
    simp only [List.cons.injEq, and_true] at h7
    cases H; cases F; simpa using h7

/-- C161: SHA-512, suffixes of at most 111 bytes. -/
theorem C161_sha512 (len : Nat) (x : List U8) (hx : x.length ≤ 111) : ∃ d : Model.Sha.HashValue 64, ∀ m : List U8,
    m.length = len → (pad 128 16 m ++ x).length < 2 ^ 64 →
    (Model.Sha.sha512 (pad 128 16 m ++ x) = Model.Sha.sha512 m ↔ Model.Sha.sha512 m = .ok d) := by
  obtain ⟨F, hF⟩ := fixed512 len x hx
  refine ⟨arrayOf 64 (bytes [F.a, F.b, F.c, F.d, F.e, F.f, F.g, F.h]), ?_⟩
  rintro m rfl hm
  obtain ⟨d, d', h1, h2, h3⟩ := C90_sha512 m x hm
  obtain ⟨d0, h4, h5⟩ := C27_sha512 m (by rw [List.length_append, length_pad, padLen] at hm; omega)
  obtain rfl := Except.ok.inj (h1.symm.trans h4)
  have key := hF (Spec.Sha.sha2Hash family64 Spec.Sha.init512 (pad 128 16 m) ((pad 128 16 m).length / 128))
  have h6 : d.toList = bytes [_, _, _, _, _, _, _, _] := h5
  generalize Spec.Sha.sha2Hash family64 Spec.Sha.init512 (pad 128 16 m) ((pad 128 16 m).length / 128) = H at *
  rw [← h6, ← h3] at key
  rw [h1, h2, Except.ok.injEq, Except.ok.injEq, ← Vector.toList_inj, key, ← Vector.toList_inj,
    toList_arrayOf _ _ (by rw [length_bytes]; rfl), h6]
  constructor
  · rintro rfl; rfl
  · intro h
    have h7 := bytes_inj rfl _ _ (by simp) h
    simp only [List.cons.injEq, and_true] at h7
    cases H; cases F; simpa using h7

/-- C161: SHA-1. -/
theorem C161_sha1 (len : Nat) (x : List U8) (hx : x.length ≤ 55) : ∃ d : Model.Sha.HashValue 20, ∀ m : List U8,
    m.length = len → (pad 64 8 m ++ x).length < 2 ^ 61 →
    (Model.Sha.sha1 (pad 64 8 m ++ x) = Model.Sha.sha1 m ↔ Model.Sha.sha1 m = .ok d) := by
  obtain ⟨F, hF⟩ := fixed1 len x hx
  refine ⟨arrayOf 20 (bytes [F.a, F.b, F.c, F.d, F.e]), ?_⟩
  rintro m rfl hm
  obtain ⟨d, d', h1, h2, h3⟩ := C90_sha1 m x hm
  obtain ⟨d0, h4, h5⟩ := C25_sha1 m (by rw [List.length_append, length_pad, padLen] at hm; omega)
  obtain rfl := Except.ok.inj (h1.symm.trans h4)
  have key := hF (Spec.Sha.sha1Hash (pad 64 8 m) ((pad 64 8 m).length / 64))
  have h6 : d.toList = bytes [_, _, _, _, _] := h5
  generalize Spec.Sha.sha1Hash (pad 64 8 m) ((pad 64 8 m).length / 64) = H at *
  rw [← h6, ← h3] at key
  rw [h1, h2, Except.ok.injEq, Except.ok.injEq, ← Vector.toList_inj, key, ← Vector.toList_inj,
    toList_arrayOf _ _ (by rw [length_bytes]; rfl), h6]
  constructor
  · rintro rfl; rfl
  · intro h
    have h7 := bytes_inj rfl _ _ (by simp) h
    simp only [List.cons.injEq, and_true] at h7
    cases H; cases F; simpa using h7

/-- The 16 bytes of the buffer of MD4 and MD5. -/
def mdBytes (H : Four) : List U8 :=
  natToLE 4 H.a.toNat ++ natToLE 4 H.b.toNat ++ natToLE 4 H.c.toNat ++ natToLE 4 H.d.toNat

theorem mdBytes_words (H : Four) : Spec.Md.word (mdBytes H) (4 * 0) = H.a ∧ Spec.Md.word (mdBytes H) (4 * 1) = H.b ∧
    Spec.Md.word (mdBytes H) (4 * 2) = H.c ∧ Spec.Md.word (mdBytes H) (4 * 3) = H.d := by
  obtain ⟨a, b, c, d⟩ := H
  have hd := mdword_bytes d []
  rw [List.append_nil] at hd
  unfold mdBytes
  simp only [List.append_assoc]
  refine ⟨mdword_bytes _ _, ?_, ?_, ?_⟩
  · rw [show 4 * 1 = 4 + 0 by rfl, mdword_skip, mdword_bytes]
  · rw [show 4 * 2 = 4 + (4 + 0) by rfl, mdword_skip, mdword_skip, mdword_bytes]
  · rw [show 4 * 3 = 4 + (4 + (4 + 0)) by rfl, mdword_skip, mdword_skip, mdword_skip, hd]

theorem mdBytes_inj (H H' : Four) (h : mdBytes H = mdBytes H') : H = H' := by
  obtain ⟨a1, a2, a3, a4⟩ := mdBytes_words H
  obtain ⟨b1, b2, b3, b4⟩ := mdBytes_words H'
  rw [h] at a1 a2 a3 a4
  exact four_ext ⟨a1.symm.trans b1, a2.symm.trans b2, a3.symm.trans b3, a4.symm.trans b4⟩

theorem length_mdTail (len : Nat) (x : List U8) (hx : x.length ≤ 55) : (mdTail len x).length = 64 := by
  unfold mdTail
  simp only [List.length_append, List.length_cons, List.length_replicate, length_natToLE]
  omega

theorem fixedMd {new : Nat → (Nat → U32) → Four → U32} (hnew : Undoable new) (n len : Nat) (x : List U8)
    (hx : x.length ≤ 55) : ∃ F : Four, ∀ H : Four, extendMd new n (mdBytes H) len x = mdBytes H ↔ H = F := by
  obtain ⟨F, h1, h2⟩ := fixed_md hnew n fun k => Spec.Md.word (mdTail (padLen 64 8 len) x) (4 * k)
  refine ⟨F, fun H => ?_⟩
  obtain ⟨w0, w1, w2, w3⟩ := mdBytes_words H
  have e : extendMd new n (mdBytes H) len x = mdBytes (bufferFrom new n H (mdTail (padLen 64 8 len) x) 1) := by
    unfold extendMd
    simp only
    rw [length_mdTail _ x hx, w0, w1, w2, w3]
    rfl
  have e' : bufferFrom new n H (mdTail (padLen 64 8 len) x) 1 =
      let r := Spec.Md.steps new (fun k => Spec.Md.word (mdTail (padLen 64 8 len) x) (4 * k)) H n
      ⟨H.a + r.a, H.b + r.b, H.c + r.c, H.d + r.d⟩ := by
    simp [bufferFrom]
  rw [e]
  constructor
  · intro h
    apply h2
    exact e'.symm.trans (mdBytes_inj _ _ h)
  · rintro rfl
    rw [e']
    exact congrArg mdBytes h1

theorem unchangedMd {new : Nat → (Nat → U32) → Four → U32} (hnew : Undoable new) (n : Nat)
    (hash : List U8 → R (Vector U8 16)) (hh : ∀ m : List U8, m.length < 2 ^ 61 →
      ∃ d, hash m = .ok d ∧ d.toList = Spec.Md.digest new n m)
    (hext : ∀ m x : List U8, (Spec.Md.pad m ++ x).length < 2 ^ 61 → ∃ d d', hash m = .ok d ∧
      hash (Spec.Md.pad m ++ x) = .ok d' ∧ d'.toList = extendMd new n d.toList m.length x)
    (len : Nat) (x : List U8) (hx : x.length ≤ 55) : ∃ d : Vector U8 16, ∀ m : List U8,
    m.length = len → (Spec.Md.pad m ++ x).length < 2 ^ 61 →
    (hash (Spec.Md.pad m ++ x) = hash m ↔ hash m = .ok d) := by
  obtain ⟨F, hF⟩ := fixedMd hnew n len x hx
  refine ⟨arrayOf 16 (mdBytes F), ?_⟩
  rintro m rfl hm
  obtain ⟨d, d', h1, h2, h3⟩ := hext m x hm
  obtain ⟨d0, h4, h5⟩ := hh m (by rw [List.length_append, length_mdpad, padLen] at hm; omega)
  obtain rfl := Except.ok.inj (h1.symm.trans h4)
  have h6 : d.toList = mdBytes (Spec.Md.buffer new n (Spec.Md.pad m) ((Spec.Md.pad m).length / 64)) := h5
  have key := hF (Spec.Md.buffer new n (Spec.Md.pad m) ((Spec.Md.pad m).length / 64))
  rw [← h6, ← h3] at key
  rw [h1, h2, Except.ok.injEq, Except.ok.injEq, ← Vector.toList_inj, key, ← Vector.toList_inj,
    toList_arrayOf _ _ (by simp [mdBytes, length_natToLE]), h6]
  exact ⟨fun h => by rw [h], fun h => mdBytes_inj _ _ h⟩

/-- C161: MD4. -/
theorem C161_md4 (len : Nat) (x : List U8) (hx : x.length ≤ 55) : ∃ d : Vector U8 16, ∀ m : List U8,
    m.length = len → (Spec.Md.pad m ++ x).length < 2 ^ 61 →
    (Model.Md4.hash (Spec.Md.pad m ++ x) = Model.Md4.hash m ↔ Model.Md4.hash m = .ok d) :=
  unchangedMd md4_undoable 48 _ C33_md4 C90_md4 len x hx

/-- C161: MD5. -/
theorem C161_md5 (len : Nat) (x : List U8) (hx : x.length ≤ 55) : ∃ d : Vector U8 16, ∀ m : List U8,
    m.length = len → (Spec.Md.pad m ++ x).length < 2 ^ 61 →
    (Model.Md5.hash (Spec.Md.pad m ++ x) = Model.Md5.hash m ↔ Model.Md5.hash m = .ok d) :=
  unchangedMd md5_undoable 64 _ C34_md5 C90_md5 len x hx

theorem existsUnique_transfer {α β : Type} (f : α → β) (hf : Function.Bijective f) (g : α → α) (k : β → β)
    (h : ∀ a, f (g a) = k (f a)) (hk : ∃! b, k b = b) : ∃! a, g a = a := by
  obtain ⟨b, hb, hu⟩ := hk
  obtain ⟨a, rfl⟩ := hf.2 b
  refine ⟨a, hf.1 ((h a).trans hb), fun a' ha' => hf.1 (hu _ ?_)⟩
  show k (f a') = f a'
  rw [← h a', ha']

theorem eight_bijective (n : Nat) : Function.Bijective (Model.Sha.eight (n := n)) := by
  refine ⟨fun v w h => ?_, fun s => ⟨#v[s.a, s.b, s.c, s.d, s.e, s.f, s.g, s.h], rfl⟩⟩
  simp only [Model.Sha.eight, Eight.mk.injEq] at h
  apply Vector.ext
  intro i hi
  rcases i with _ | _ | _ | _ | _ | _ | _ | _ | i
  all_goals first | omega | simp [h]

theorem five_bijective : Function.Bijective Model.Sha.five := by
  refine ⟨fun v w h => ?_, fun s => ⟨#v[s.a, s.b, s.c, s.d, s.e], rfl⟩⟩
  simp only [Model.Sha.five, Five.mk.injEq] at h
  apply Vector.ext
  intro i hi
  rcases i with _ | _ | _ | _ | _ | i
  all_goals first | omega | simp [h]

theorem four_bijective : Function.Bijective Model.Md.four := by
  refine ⟨fun v w h => ?_, fun s => ⟨⟨s.a, s.b, s.c, s.d⟩, rfl⟩⟩
  cases v; cases w
  simpa [Model.Md.four] using h

/-- C161: for every block, exactly one hash state is left unchanged when SHA-1 processes the block. -/
theorem C161_chunk_sha1 (block : Vector U8 64) : ∃! h : Vector U32 5, Model.Sha.sha1Chunk h block = h := by
  obtain ⟨M, hM⟩ : ∃ M : Nat → U32, ∀ t (ht : t < 16),
      M t = beU32 block[4 * t] block[4 * t + 1] block[4 * t + 2] block[4 * t + 3] :=
    ⟨fun t => if ht : t < 16 then beU32 block[4 * t] block[4 * t + 1] block[4 * t + 2] block[4 * t + 3] else 0#32,
      fun t ht => dif_pos ht⟩
  exact existsUnique_transfer Model.Sha.five five_bijective (fun h => Model.Sha.sha1Chunk h block)
    (fun H => sha1Compress H M) (fun h => Model.Sha.sha1Chunk_eq h block M hM) (C161_block_sha1 M)

/-- C161: the same for SHA-224 and SHA-256. -/
theorem C161_chunk_sha256 (block : Vector U8 64) : ∃! h : Vector U32 8, Model.Sha.sha256Chunk h block = h :=
  existsUnique_transfer _ (eight_bijective 32) (fun h => Model.Sha.sha256Chunk h block) _ (fun h => Model.Sha.sha256Chunk_eq h block
    (fun t => if ht : t < 16 then beU32 block[4 * t] block[4 * t + 1] block[4 * t + 2] block[4 * t + 3] else 0#32)
    (fun t ht => dif_pos ht)) (C161_block_sha2 _ _)

/-- C161: the same for SHA-384 and SHA-512. -/
theorem C161_chunk_sha512 (block : Vector U8 128) : ∃! h : Vector U64 8, Model.Sha.sha512Chunk h block = h :=
  existsUnique_transfer _ (eight_bijective 64) (fun h => Model.Sha.sha512Chunk h block) _ (fun h => Model.Sha.sha512Chunk_eq h block
    (fun t => if ht : t < 16 then beU64 block[8 * t] block[8 * t + 1] block[8 * t + 2] block[8 * t + 3]
      block[8 * t + 4] block[8 * t + 5] block[8 * t + 6] block[8 * t + 7] else 0#64)
    (fun t ht => dif_pos ht)) (C161_block_sha2 _ _)

theorem fixed_comp {new : Nat → (Nat → U32) → Four → U32} (hnew : Undoable new) (n : Nat)
    (P : Vector U32 16 → Model.Md.Abcd → Model.Md.Abcd)
    (hP : ∀ (x : Vector U32 16) (X : Nat → U32) (s : Model.Md.Abcd), (∀ k (_ : k < 16), X k = x[k]) →
      Model.Md.four (P x s) = Spec.Md.steps new X (Model.Md.four s) n) (block : Vector U8 64) :
    ∃! s, Model.Md.comp P s block = s := by
  refine existsUnique_transfer _ four_bijective _ _ (fun s => ?_) (fixed_md hnew n
    fun k => if hk : k < 16 then (Model.Md.blockWords block)[k] else 0#32)
  have := hP (Model.Md.blockWords block) (fun k => if hk : k < 16 then (Model.Md.blockWords block)[k] else 0#32) s
    (fun k hk => dif_pos hk)
  rw [← this]
  rfl

/-- C161: for every block, exactly one buffer is left unchanged when MD4 processes the block. -/
theorem C161_chunk_md4 (block : Vector U8 64) (n : Nat) : ∃! s : Model.Md.Abcd,
    Model.Md.Hasher.processBlock (fun x s => .ok (Model.Md4.process x s)) ⟨block.toList, n, s⟩ = .ok ⟨[], n, s⟩ := by
  obtain ⟨s, h1, h2⟩ := fixed_comp md4_undoable 48 Model.Md4.process Model.Md4.process_eq block
  have key : ∀ s, Model.Md.Hasher.processBlock (fun x s => .ok (Model.Md4.process x s)) ⟨block.toList, n, s⟩ =
      .ok ⟨[], n, Model.Md.comp Model.Md4.process s block⟩ := by
    intro s
    unfold Model.Md.Hasher.processBlock
    simp only [Model.Md.blockFromSlice_toList]
    rfl
  refine ⟨s, (key s).trans (by rw [h1]), fun s' h' => h2 s' ?_⟩
  dsimp only at h'
  rw [key, Except.ok.injEq, Model.Md.Hasher.mk.injEq] at h'
  exact h'.2.2

/-- C161: the same for MD5. -/
theorem C161_chunk_md5 (block : Vector U8 64) (n : Nat) : ∃! s : Model.Md.Abcd,
    Model.Md.Hasher.processBlock Model.Md5.process ⟨block.toList, n, s⟩ = .ok ⟨[], n, s⟩ := by
  obtain ⟨s, h1, h2⟩ := fixed_comp md5_undoable 64 Model.Md5.processT Model.Md5.processT_eq block
  have key : ∀ s, Model.Md.Hasher.processBlock Model.Md5.process ⟨block.toList, n, s⟩ =
      .ok ⟨[], n, Model.Md.comp Model.Md5.processT s block⟩ := by
    intro s
    unfold Model.Md.Hasher.processBlock
    simp only [Model.Md.blockFromSlice_toList]
    rw [show (Except.ok (Model.Md.blockWords block) >>= fun b => Model.Md5.process b s >>= _) =
      (Model.Md5.process (Model.Md.blockWords block) s >>= _) from rfl, Model.Md5.process_total]
    rfl
  refine ⟨s, (key s).trans (by rw [h1]), fun s' h' => h2 s' ?_⟩
  dsimp only at h'
  rw [key, Except.ok.injEq, Model.Md.Hasher.mk.injEq] at h'
  exact h'.2.2

/-- Two hash states that the block of 64 zeros does not change are the same. -/
example (h h' : Vector U32 8) (e : Model.Sha.sha256Chunk h (Vector.replicate 64 0#8) = h)
    (e' : Model.Sha.sha256Chunk h' (Vector.replicate 64 0#8) = h') : h = h' :=
  (C161_chunk_sha256 _).unique e e'

/-- Messages of three bytes and the suffix `[1, 2]`: all messages that keep their SHA-256 value have the same. -/
example (m m' : List U8) (hm : m.length = 3) (hm' : m'.length = 3)
    (h : Model.Sha.sha256 (pad 64 8 m ++ [1#8, 2#8]) = Model.Sha.sha256 m)
    (h' : Model.Sha.sha256 (pad 64 8 m' ++ [1#8, 2#8]) = Model.Sha.sha256 m') :
    Model.Sha.sha256 m = Model.Sha.sha256 m' := by
  obtain ⟨d, hd⟩ := C161_sha256 3 [1#8, 2#8] (by decide)
  have hl : ∀ m : List U8, m.length = 3 → (pad 64 8 m ++ [1#8, 2#8]).length < 2 ^ 61 := by
    intro m hm
    rw [List.length_append, length_pad, hm]
    decide
  rw [(hd m hm (hl m hm)).1 h, (hd m' hm' (hl m' hm')).1 h']
/-- The chaining value that the block of 64 zeros leaves unchanged under MD5, and the hasher of the crate that has it. -/
example : Model.Md.Hasher.processBlock Model.Md5.process
    ⟨List.replicate 64 0#8, 64, ⟨0x4c2bcbdf#32, 0x6c9d368a#32, 0x3da1c404#32, 0xe07fa59d#32⟩⟩ =
    .ok ⟨[], 64, ⟨0x4c2bcbdf#32, 0x6c9d368a#32, 0x3da1c404#32, 0xe07fa59d#32⟩⟩ := by decide +kernel
/-- Another chaining value is changed. -/
example : Model.Md.Hasher.processBlock Model.Md5.process
    ⟨List.replicate 64 0#8, 64, ⟨0x4c2bcbde#32, 0x6c9d368a#32, 0x3da1c404#32, 0xe07fa59d#32⟩⟩ ≠
    .ok ⟨[], 64, ⟨0x4c2bcbde#32, 0x6c9d368a#32, 0x3da1c404#32, 0xe07fa59d#32⟩⟩ := by decide +kernel

end Verif.Props
