import Verif.Props.Sha
import Verif.Props.Md

/-! # C90: length extension

From the digest and the length of a message alone, without the message, anybody computes the digest of the padded message
followed by a suffix of their choice. The functions `extend…` below do this: they have no other arguments. -/

namespace Verif.Props
open Verif

namespace Extend
open Spec.Sha

/-! ## The spec's block functions look only at their block -/

theorem beVal_take_drop_left (a b : List U8) (off k : Nat) (h : off + k ≤ a.length) :
    ((a ++ b).drop off).take k = (a.drop off).take k := by
  rw [List.drop_append_of_le_length (by omega), List.take_append_of_le_length (by simp; omega)]

theorem word_left {n : Nat} (a b : List U8) (off : Nat) (h : off + n / 8 ≤ a.length) :
    word n (a ++ b) off = word n a off := by
  unfold word; rw [beVal_take_drop_left a b off _ h]

theorem word_right {n : Nat} (a b : List U8) (off : Nat) : word n (a ++ b) (a.length + off) = word n b off := by
  unfold word; rw [← List.drop_drop, List.drop_left' rfl]

theorem sha1W_congr (M M' : Nat → U32) (h : ∀ t < 16, M t = M' t) : sha1W M = sha1W M' := by
  funext t
  induction t using Nat.strong_induction_on with
  | _ t ih =>
    rw [sha1W.eq_def M t, sha1W.eq_def M' t]
    by_cases ht : t < 16
    · rw [if_pos ht, if_pos ht, h t ht]
    · rw [if_neg ht, if_neg ht, ih _ (by omega), ih _ (by omega), ih _ (by omega), ih _ (by omega)]

theorem sha2W_congr {n : Nat} (F : Family n) (M M' : Nat → BitVec n) (h : ∀ t < 16, M t = M' t) :
    sha2W F M = sha2W F M' := by
  funext t
  induction t using Nat.strong_induction_on with
  | _ t ih =>
    rw [sha2W.eq_def F M t, sha2W.eq_def F M' t]
    by_cases ht : t < 16
    · rw [if_pos ht, if_pos ht, h t ht]
    · rw [if_neg ht, if_neg ht, ih _ (by omega), ih _ (by omega), ih _ (by omega), ih _ (by omega)]

/-- SHA-1 from an arbitrary hash value on. -/
def sha1From (H : Five) (p : List U8) : Nat → Five
  | 0 => H
  | i + 1 => sha1Compress (sha1From H p i) fun t => word 32 p (64 * i + 4 * t)

theorem sha1Hash_left (a b : List U8) (i : Nat) (h : 64 * i ≤ a.length) : sha1Hash (a ++ b) i = sha1Hash a i := by
  induction i with
  | zero => rfl
  | succ i ih =>
    rw [sha1Hash, sha1Hash, ih (by omega), sha1Compress, sha1Compress,
      sha1W_congr _ _ fun t ht => word_left a b _ (by omega)]

theorem sha1Hash_right (a b : List U8) (i j : Nat) (h : 64 * i = a.length) :
    sha1Hash (a ++ b) (i + j) = sha1From (sha1Hash a i) b j := by
  induction j with
  | zero => exact sha1Hash_left a b i (by omega)
  | succ j ih =>
    rw [← Nat.add_assoc, sha1Hash, ih, sha1From, sha1Compress, sha1Compress,
      sha1W_congr _ _ fun t _ => (by rw [← word_right a b, ← h]; congr 1; omega :
        word 32 (a ++ b) (64 * (i + j) + 4 * t) = word 32 b (64 * j + 4 * t))]

theorem sha2Hash_left {n : Nat} (F : Family n) (H0 : Eight n) (a b : List U8) (i : Nat)
    (h : 16 * (n / 8) * i ≤ a.length) : sha2Hash F H0 (a ++ b) i = sha2Hash F H0 a i := by
  induction i with
  | zero => rfl
  | succ i ih =>
    rw [Nat.mul_succ] at h
    rw [sha2Hash, sha2Hash, ih (by omega), sha2Compress, sha2Compress,
      sha2W_congr F _ _ fun t ht => word_left a b _ (by
        have : n / 8 * t + n / 8 ≤ 16 * (n / 8) := by
          calc n / 8 * t + n / 8 = n / 8 * (t + 1) := by rw [Nat.mul_succ]
            _ ≤ n / 8 * 16 := Nat.mul_le_mul_left _ (by omega)
            _ = 16 * (n / 8) := Nat.mul_comm _ _
        omega)]

theorem sha2Hash_right {n : Nat} (F : Family n) (H0 : Eight n) (a b : List U8) (i j : Nat)
    (h : 16 * (n / 8) * i = a.length) :
    sha2Hash F H0 (a ++ b) (i + j) = sha2Hash F (sha2Hash F H0 a i) b j := by
  induction j with
  | zero => exact sha2Hash_left F H0 a b i (by omega)
  | succ j ih =>
    rw [← Nat.add_assoc, sha2Hash, ih, sha2Hash, sha2Compress, sha2Compress,
      sha2W_congr F _ _ fun t _ => (by rw [← word_right a b, ← h, Nat.mul_add, Nat.add_assoc] :
        word n (a ++ b) (16 * (n / 8) * (i + j) + n / 8 * t) = word n b (16 * (n / 8) * j + n / 8 * t))]

/-! ## Padding -/

/-- The length of the padded message depends on the length of the message only. -/
def padLen (N L len : Nat) : Nat := len + 1 + (2 * N - 1 - L - len % N) % N + L

theorem length_pad (N L : Nat) (m : List U8) : (pad N L m).length = padLen N L m.length := by
  simp [pad, padLen, length_natToBE]; omega

theorem padLen_mod {N L len : Nat} (hL : L + 1 ≤ N) : padLen N L len % N = 0 := by
  unfold padLen
  have h1 : len % N < N := Nat.mod_lt _ (by omega)
  have h2 := Nat.div_add_mod len N
  have h3 := Nat.div_add_mod (2 * N - 1 - L - len % N) N
  apply Nat.mod_eq_zero_of_dvd
  rcases Nat.lt_or_ge (2 * N - 1 - L - len % N) N with h | h
  · rw [Nat.mod_eq_of_lt h]
    exact ⟨len / N + 2, by rw [Nat.mul_add]; omega⟩
  · rw [Nat.mod_eq_sub_mod h, Nat.mod_eq_of_lt (by omega)]
    exact ⟨len / N + 1, by rw [Nat.mul_add]; omega⟩

/-- What the padding of `len` known bytes followed by the suffix `x` adds after the known bytes (`len` a multiple of the
block size). -/
def padTail (N L len : Nat) (x : List U8) : List U8 :=
  x ++ 0x80#8 :: List.replicate ((2 * N - 1 - L - x.length % N) % N) 0#8 ++ natToBE L (8 * (len + x.length))

theorem pad_append {N L : Nat} (a x : List U8) (h : a.length % N = 0) :
    pad N L (a ++ x) = a ++ padTail N L a.length x := by
  unfold pad padTail
  have : (a ++ x).length % N = x.length % N := by rw [List.length_append, Nat.add_mod, h]; simp
  rw [this]
  simp

/-! ## Words and bytes -/

theorem word_of_bytes {n : Nat} (hn : n = 8 * (n / 8)) (w : BitVec n) (r : List U8) :
    word n (natToBE (n / 8) w.toNat ++ r) 0 = w := by
  unfold word
  rw [List.drop_zero, List.take_left' (length_natToBE _ _), beVal_natToBE]
  apply BitVec.eq_of_toNat_eq
  have : (256 : Nat) ^ (n / 8) = 2 ^ n := by
    rw [show (256 : Nat) = 2 ^ 8 by rfl, ← Nat.pow_mul, ← hn]
  rw [this, BitVec.toNat_ofNat, Nat.mod_mod, Nat.mod_eq_of_lt w.isLt]

theorem word_skip {n : Nat} (w : BitVec n) (r : List U8) (off : Nat) :
    word n (natToBE (n / 8) w.toNat ++ r) (n / 8 + off) = word n r off := by
  have := word_right (n := n) (natToBE (n / 8) w.toNat) r off
  rwa [length_natToBE] at this

theorem word_bytes {n : Nat} (hn : n = 8 * (n / 8)) (ws : List (BitVec n)) (i : Nat) (hi : i < ws.length) :
    word n (bytes ws) (n / 8 * i) = ws[i] := by
  induction ws generalizing i with
  | nil => simp at hi
  | cons w ws ih =>
    rw [show bytes (w :: ws) = natToBE (n / 8) w.toNat ++ bytes ws from rfl]
    cases i with
    | zero => rw [Nat.mul_zero, word_of_bytes hn]; rfl
    | succ i =>
      rw [Nat.mul_succ, Nat.add_comm, word_skip, ih i (by simpa using hi)]; rfl

end Extend

open Extend Spec.Sha

/-! ## The attacks -/

/-- The SHA-256 digest of the padded message followed by `x`, from the digest and the length of the message. -/
noncomputable def extend256 (digest : List U8) (len : Nat) (x : List U8) : List U8 :=
  let w := fun i => word 32 digest (4 * i)
  let p := padTail 64 8 (padLen 64 8 len) x
  let H := sha2Hash family32 ⟨w 0, w 1, w 2, w 3, w 4, w 5, w 6, w 7⟩ p (p.length / 64)
  bytes [H.a, H.b, H.c, H.d, H.e, H.f, H.g, H.h]

/-- The same for SHA-512. -/
noncomputable def extend512 (digest : List U8) (len : Nat) (x : List U8) : List U8 :=
  let w := fun i => word 64 digest (8 * i)
  let p := padTail 128 16 (padLen 128 16 len) x
  let H := sha2Hash family64 ⟨w 0, w 1, w 2, w 3, w 4, w 5, w 6, w 7⟩ p (p.length / 128)
  bytes [H.a, H.b, H.c, H.d, H.e, H.f, H.g, H.h]

/-- The same for SHA-1. -/
def extend1 (digest : List U8) (len : Nat) (x : List U8) : List U8 :=
  let w := fun i => word 32 digest (4 * i)
  let p := padTail 64 8 (padLen 64 8 len) x
  let H := sha1From ⟨w 0, w 1, w 2, w 3, w 4⟩ p (p.length / 64)
  bytes [H.a, H.b, H.c, H.d, H.e]

theorem extend256_eq (m x : List U8) : Spec.Sha.sha256 (pad 64 8 m ++ x) = extend256 (Spec.Sha.sha256 m) m.length x := by
  have hz : (pad 64 8 m).length % 64 = 0 := by rw [length_pad]; exact padLen_mod (by omega)
  have hw : ∀ (ws : List U32) (i : Nat) (hi : i < ws.length), word 32 (bytes ws) (4 * i) = ws[i] :=
    fun ws i hi => word_bytes (n := 32) rfl ws i hi
  unfold extend256
  simp only
  rw [Spec.Sha.sha256, pad_append _ x hz, ← length_pad 64 8 m]
  generalize hp : padTail 64 8 (pad 64 8 m).length x = p
  have hl : (pad 64 8 m ++ p).length / 64 = (pad 64 8 m).length / 64 + p.length / 64 := by
    rw [List.length_append]; omega
  simp only [hl]
  rw [sha2Hash_right family32 init256 (pad 64 8 m) p _ _ (by simp; omega)]
  simp only [Spec.Sha.sha256]
  rw [hw _ 0 (by simp), hw _ 1 (by simp), hw _ 2 (by simp), hw _ 3 (by simp), hw _ 4 (by simp), hw _ 5 (by simp),
    hw _ 6 (by simp), hw _ 7 (by simp)]
  rfl

theorem extend512_eq (m x : List U8) : Spec.Sha.sha512 (pad 128 16 m ++ x) = extend512 (Spec.Sha.sha512 m) m.length x := by
  have hz : (pad 128 16 m).length % 128 = 0 := by rw [length_pad]; exact padLen_mod (by omega)
  have hw : ∀ (ws : List U64) (i : Nat) (hi : i < ws.length), word 64 (bytes ws) (8 * i) = ws[i] :=
    fun ws i hi => word_bytes (n := 64) rfl ws i hi
  unfold extend512
  simp only
  rw [Spec.Sha.sha512, pad_append _ x hz, ← length_pad 128 16 m]
  generalize hp : padTail 128 16 (pad 128 16 m).length x = p
  have hl : (pad 128 16 m ++ p).length / 128 = (pad 128 16 m).length / 128 + p.length / 128 := by
    rw [List.length_append]; omega
  simp only [hl]
  rw [sha2Hash_right family64 init512 (pad 128 16 m) p _ _ (by simp; omega)]
  simp only [Spec.Sha.sha512]
  rw [hw _ 0 (by simp), hw _ 1 (by simp), hw _ 2 (by simp), hw _ 3 (by simp), hw _ 4 (by simp), hw _ 5 (by simp),
    hw _ 6 (by simp), hw _ 7 (by simp)]
  rfl

theorem extend1_eq (m x : List U8) : Spec.Sha.sha1 (pad 64 8 m ++ x) = extend1 (Spec.Sha.sha1 m) m.length x := by
  have hz : (pad 64 8 m).length % 64 = 0 := by rw [length_pad]; exact padLen_mod (by omega)
  have hw : ∀ (ws : List U32) (i : Nat) (hi : i < ws.length), word 32 (bytes ws) (4 * i) = ws[i] :=
    fun ws i hi => word_bytes (n := 32) rfl ws i hi
  unfold extend1
  simp only
  rw [Spec.Sha.sha1, pad_append _ x hz, ← length_pad 64 8 m]
  generalize hp : padTail 64 8 (pad 64 8 m).length x = p
  have hl : (pad 64 8 m ++ p).length / 64 = (pad 64 8 m).length / 64 + p.length / 64 := by
    rw [List.length_append]; omega
  simp only [hl]
  rw [sha1Hash_right (pad 64 8 m) p _ _ (by omega)]
  simp only [Spec.Sha.sha1]
  rw [hw _ 0 (by simp), hw _ 1 (by simp), hw _ 2 (by simp), hw _ 3 (by simp), hw _ 4 (by simp)]
  rfl

/-- C90: SHA-256. -/
theorem C90_sha256 (m x : List U8) (h : (pad 64 8 m ++ x).length < 2 ^ 61) : ∃ d d' : Model.Sha.HashValue 32,
    Model.Sha.sha256 m = .ok d ∧ Model.Sha.sha256 (pad 64 8 m ++ x) = .ok d' ∧
    d'.toList = extend256 d.toList m.length x := by
  have hm : m.length < 2 ^ 61 := by
    rw [List.length_append, length_pad, padLen] at h; omega
  obtain ⟨d, h1, e1⟩ := C26_sha256 m hm
  obtain ⟨d', h2, e2⟩ := C26_sha256 _ h
  exact ⟨d, d', h1, h2, by rw [e2, e1, extend256_eq]⟩

/-- C90: SHA-512. -/
theorem C90_sha512 (m x : List U8) (h : (pad 128 16 m ++ x).length < 2 ^ 64) : ∃ d d' : Model.Sha.HashValue 64,
    Model.Sha.sha512 m = .ok d ∧ Model.Sha.sha512 (pad 128 16 m ++ x) = .ok d' ∧
    d'.toList = extend512 d.toList m.length x := by
  have hm : m.length < 2 ^ 64 := by
    rw [List.length_append, length_pad, padLen] at h; omega
  obtain ⟨d, h1, e1⟩ := C27_sha512 m hm
  obtain ⟨d', h2, e2⟩ := C27_sha512 _ h
  exact ⟨d, d', h1, h2, by rw [e2, e1, extend512_eq]⟩

/-- C90: SHA-1. -/
theorem C90_sha1 (m x : List U8) (h : (pad 64 8 m ++ x).length < 2 ^ 61) : ∃ d d' : Model.Sha.HashValue 20,
    Model.Sha.sha1 m = .ok d ∧ Model.Sha.sha1 (pad 64 8 m ++ x) = .ok d' ∧
    d'.toList = extend1 d.toList m.length x := by
  have hm : m.length < 2 ^ 61 := by
    rw [List.length_append, length_pad, padLen] at h; omega
  obtain ⟨d, h1, e1⟩ := C25_sha1 m hm
  obtain ⟨d', h2, e2⟩ := C25_sha1 _ h
  exact ⟨d, d', h1, h2, by rw [e2, e1, extend1_eq]⟩

/-! ## MD4 and MD5 -/

namespace Extend
open _root_.Verif.Spec.Md (Four steps buffer init)

theorem mdword_left (a b : List U8) (off : Nat) (h : off + 4 ≤ a.length) :
    Spec.Md.word (a ++ b) off = Spec.Md.word a off := by
  unfold Spec.Md.word; rw [beVal_take_drop_left a b off _ h]

theorem mdword_right (a b : List U8) (off : Nat) : Spec.Md.word (a ++ b) (a.length + off) = Spec.Md.word b off := by
  unfold Spec.Md.word; rw [← List.drop_drop, List.drop_left' rfl]

/-- The 64-byte blocks of `p`, compressed one by one, from an arbitrary buffer on. -/
def bufferFrom (new : Nat → (Nat → U32) → Four → U32) (n : Nat) (H0 : Four) (p : List U8) : Nat → Four
  | 0 => H0
  | i + 1 =>
    let H := bufferFrom new n H0 p i
    let r := steps new (fun k => Spec.Md.word p (64 * i + 4 * k)) H n
    ⟨H.a + r.a, H.b + r.b, H.c + r.c, H.d + r.d⟩

/-- A step function that looks at the sixteen words of the block only. -/
def Local (new : Nat → (Nat → U32) → Four → U32) (n : Nat) : Prop :=
  ∀ t < n, ∀ X X' : Nat → U32, (∀ k < 16, X k = X' k) → ∀ r, new t X r = new t X' r

theorem steps_congr {new : Nat → (Nat → U32) → Four → U32} {n : Nat} (hnew : Local new n) (X X' : Nat → U32)
    (h : ∀ k < 16, X k = X' k) (s : Four) (t : Nat) (ht : t ≤ n) : steps new X s t = steps new X' s t := by
  induction t with
  | zero => rfl
  | succ t ih =>
    simp only [steps]
    rw [ih (by omega), hnew t (by omega) X X' h]

theorem buffer_left {new : Nat → (Nat → U32) → Four → U32} {n : Nat} (hnew : Local new n) (a b : List U8) (i : Nat)
    (h : 64 * i ≤ a.length) : buffer new n (a ++ b) i = buffer new n a i := by
  induction i with
  | zero => rfl
  | succ i ih =>
    simp only [buffer]
    rw [ih (by omega), steps_congr hnew _ _ (fun k hk => mdword_left a b _ (by omega)) _ n (Nat.le_refl _)]

theorem buffer_right {new : Nat → (Nat → U32) → Four → U32} {n : Nat} (hnew : Local new n) (a b : List U8) (i j : Nat)
    (h : 64 * i = a.length) : buffer new n (a ++ b) (i + j) = bufferFrom new n (buffer new n a i) b j := by
  induction j with
  | zero => exact buffer_left hnew a b i (by omega)
  | succ j ih =>
    rw [← Nat.add_assoc]
    simp only [buffer, bufferFrom]
    rw [ih, steps_congr hnew _ _ (fun k _ => (by rw [← mdword_right a b, ← h]; congr 1; omega :
        Spec.Md.word (a ++ b) (64 * (i + j) + 4 * k) = Spec.Md.word b (64 * j + 4 * k))) _ n (Nat.le_refl _)]

theorem md4_local : Local Spec.Md.md4New 48 := by
  intro t ht X X' h r
  unfold Spec.Md.md4New
  rw [h]
  unfold Spec.Md.md4Index
  split
  · assumption
  · split <;> omega

theorem md5_local : Local Spec.Md.md5New 64 := by
  intro t ht X X' h r
  unfold Spec.Md.md5New
  rw [h]
  unfold Spec.Md.md5Index
  split
  · assumption
  · split
    · omega
    · split <;> omega

/-- The same as `padLen` and `padTail`, with the length least significant byte first. -/
def mdTail (len : Nat) (x : List U8) : List U8 :=
  x ++ 0x80#8 :: List.replicate ((119 - x.length % 64) % 64) 0#8 ++ natToLE 8 (8 * (len + x.length))

theorem length_mdpad (m : List U8) : (Spec.Md.pad m).length = padLen 64 8 m.length := by
  simp [Spec.Md.pad, padLen, length_natToLE]; omega

theorem mdpad_append (a x : List U8) (h : a.length % 64 = 0) : Spec.Md.pad (a ++ x) = a ++ mdTail a.length x := by
  unfold Spec.Md.pad mdTail
  have : (a ++ x).length % 64 = x.length % 64 := by rw [List.length_append]; omega
  rw [this]
  simp

theorem mdword_bytes (w : U32) (r : List U8) : Spec.Md.word (natToLE 4 w.toNat ++ r) 0 = w := by
  unfold Spec.Md.word
  rw [List.drop_zero, List.take_left' (length_natToLE _ _), leVal_natToLE]
  apply BitVec.eq_of_toNat_eq
  rw [BitVec.toNat_ofNat, show (256 : Nat) ^ 4 = 2 ^ 32 by rfl, Nat.mod_mod, Nat.mod_eq_of_lt w.isLt]

theorem mdword_skip (w : U32) (r : List U8) (off : Nat) :
    Spec.Md.word (natToLE 4 w.toNat ++ r) (4 + off) = Spec.Md.word r off := by
  have := mdword_right (natToLE 4 w.toNat) r off
  rwa [length_natToLE] at this

end Extend

/-- The digest of the padded message followed by `x`, from the digest and the length of the message, for the hash function
with the step function `new` and `n` steps. -/
def extendMd (new : Nat → (Nat → U32) → Spec.Md.Four → U32) (n : Nat) (digest : List U8) (len : Nat) (x : List U8) :
    List U8 :=
  let w := fun i => Spec.Md.word digest (4 * i)
  let p := mdTail (padLen 64 8 len) x
  let H := bufferFrom new n ⟨w 0, w 1, w 2, w 3⟩ p (p.length / 64)
  natToLE 4 H.a.toNat ++ natToLE 4 H.b.toNat ++ natToLE 4 H.c.toNat ++ natToLE 4 H.d.toNat

theorem extendMd_eq {new : Nat → (Nat → U32) → Spec.Md.Four → U32} {n : Nat} (hnew : Local new n) (m x : List U8) :
    Spec.Md.digest new n (Spec.Md.pad m ++ x) = extendMd new n (Spec.Md.digest new n m) m.length x := by
  have hz : (Spec.Md.pad m).length % 64 = 0 := by rw [length_mdpad]; exact padLen_mod (by omega)
  unfold extendMd
  simp only
  rw [Spec.Md.digest, mdpad_append _ x hz, ← length_mdpad m]
  generalize hp : mdTail (Spec.Md.pad m).length x = p
  have hl : (Spec.Md.pad m ++ p).length / 64 = (Spec.Md.pad m).length / 64 + p.length / 64 := by
    rw [List.length_append]; omega
  simp only [hl]
  rw [buffer_right hnew (Spec.Md.pad m) p _ _ (by omega)]
  simp only [Spec.Md.digest]
  generalize Spec.Md.buffer new n (Spec.Md.pad m) ((Spec.Md.pad m).length / 64) = H
  obtain ⟨a, b, c, d⟩ := H
  simp only [List.append_assoc]
  rw [Nat.mul_zero, mdword_bytes, show 4 * 1 = 4 + 0 by rfl, mdword_skip, mdword_bytes,
    show 4 * 2 = 4 + (4 + 0) by rfl, mdword_skip, mdword_skip, mdword_bytes,
    show 4 * 3 = 4 + (4 + (4 + 0)) by rfl, mdword_skip, mdword_skip, mdword_skip]
  have := mdword_bytes d []
  rw [List.append_nil] at this
  rw [this]

/-- C90: MD4. -/
theorem C90_md4 (m x : List U8) (h : (Spec.Md.pad m ++ x).length < 2 ^ 61) : ∃ d d',
    Model.Md4.hash m = .ok d ∧ Model.Md4.hash (Spec.Md.pad m ++ x) = .ok d' ∧
    d'.toList = extendMd Spec.Md.md4New 48 d.toList m.length x := by
  have hm : m.length < 2 ^ 61 := by
    rw [List.length_append, length_mdpad, padLen] at h; omega
  obtain ⟨d, h1, e1⟩ := C33_md4 m hm
  obtain ⟨d', h2, e2⟩ := C33_md4 _ h
  exact ⟨d, d', h1, h2, by rw [e2, e1]; exact extendMd_eq md4_local m x⟩

/-- C90: MD5. -/
theorem C90_md5 (m x : List U8) (h : (Spec.Md.pad m ++ x).length < 2 ^ 61) : ∃ d d',
    Model.Md5.hash m = .ok d ∧ Model.Md5.hash (Spec.Md.pad m ++ x) = .ok d' ∧
    d'.toList = extendMd Spec.Md.md5New 64 d.toList m.length x := by
  have hm : m.length < 2 ^ 61 := by
    rw [List.length_append, length_mdpad, padLen] at h; omega
  obtain ⟨d, h1, e1⟩ := C34_md5 m hm
  obtain ⟨d', h2, e2⟩ := C34_md5 _ h
  exact ⟨d, d', h1, h2, by rw [e2, e1]; exact extendMd_eq md5_local m x⟩

/-- C90: two messages of the same length with the same SHA-256 digest keep a common digest whatever is appended to both
padded messages. -/
theorem C90_collisions_extend (m m' x : List U8) (hl : m.length = m'.length) (h : (pad 64 8 m ++ x).length < 2 ^ 61)
    (he : Model.Sha.sha256 m = Model.Sha.sha256 m') :
    Model.Sha.sha256 (pad 64 8 m ++ x) = Model.Sha.sha256 (pad 64 8 m' ++ x) := by
  obtain ⟨d1, d2, h1, h2, e⟩ := C90_sha256 m x h
  obtain ⟨d1', d2', h1', h2', e'⟩ := C90_sha256 m' x (by
    rw [List.length_append, length_pad] at h ⊢; rw [← hl]; exact h)
  have hd : d1 = d1' := Except.ok.inj ((h1.symm.trans he).trans h1')
  rw [h2, h2']
  apply congrArg
  apply Vector.toList_inj.1
  rw [e, e', hd, hl]

/-- C90: the same for the other functions. -/
theorem C90_collisions_extend_sha512 (m m' x : List U8) (hl : m.length = m'.length) (h : (pad 128 16 m ++ x).length < 2 ^ 64)
    (he : Model.Sha.sha512 m = Model.Sha.sha512 m') : Model.Sha.sha512 (pad 128 16 m ++ x) = Model.Sha.sha512 (pad 128 16 m' ++ x) := by
  obtain ⟨d1, d2, h1, h2, e⟩ := C90_sha512 m x h
  obtain ⟨d1', d2', h1', h2', e'⟩ := C90_sha512 m' x (by
    rw [List.length_append, length_pad] at h ⊢; rw [← hl]; exact h)
  have hd : d1 = d1' := Except.ok.inj ((h1.symm.trans he).trans h1')
  rw [h2, h2']
  apply congrArg
  apply Vector.toList_inj.1
  rw [e, e', hd, hl]

theorem C90_collisions_extend_sha1 (m m' x : List U8) (hl : m.length = m'.length) (h : (pad 64 8 m ++ x).length < 2 ^ 61)
    (he : Model.Sha.sha1 m = Model.Sha.sha1 m') : Model.Sha.sha1 (pad 64 8 m ++ x) = Model.Sha.sha1 (pad 64 8 m' ++ x) := by
  obtain ⟨d1, d2, h1, h2, e⟩ := C90_sha1 m x h
  obtain ⟨d1', d2', h1', h2', e'⟩ := C90_sha1 m' x (by
    rw [List.length_append, length_pad] at h ⊢; rw [← hl]; exact h)
  have hd : d1 = d1' := Except.ok.inj ((h1.symm.trans he).trans h1')
  rw [h2, h2']
  apply congrArg
  apply Vector.toList_inj.1
  rw [e, e', hd, hl]

theorem length_md_pad {m m' : List U8} (hl : m.length = m'.length) : (Spec.Md.pad m).length = (Spec.Md.pad m').length := by
  unfold Spec.Md.pad
  simp only [List.length_append, List.length_cons, List.length_replicate, hl]

theorem C90_collisions_extend_md4 (m m' x : List U8) (hl : m.length = m'.length) (h : (Spec.Md.pad m ++ x).length < 2 ^ 61)
    (he : Model.Md4.hash m = Model.Md4.hash m') : Model.Md4.hash (Spec.Md.pad m ++ x) = Model.Md4.hash (Spec.Md.pad m' ++ x) := by
  obtain ⟨d1, d2, h1, h2, e⟩ := C90_md4 m x h
  obtain ⟨d1', d2', h1', h2', e'⟩ := C90_md4 m' x (by
    rw [List.length_append] at h ⊢; rw [← length_md_pad hl]; exact h)
  have hd : d1 = d1' := Except.ok.inj ((h1.symm.trans he).trans h1')
  rw [h2, h2']
  apply congrArg
  apply Vector.toList_inj.1
  rw [e, e', hd, hl]

theorem C90_collisions_extend_md5 (m m' x : List U8) (hl : m.length = m'.length) (h : (Spec.Md.pad m ++ x).length < 2 ^ 61)
    (he : Model.Md5.hash m = Model.Md5.hash m') : Model.Md5.hash (Spec.Md.pad m ++ x) = Model.Md5.hash (Spec.Md.pad m' ++ x) := by
  obtain ⟨d1, d2, h1, h2, e⟩ := C90_md5 m x h
  obtain ⟨d1', d2', h1', h2', e'⟩ := C90_md5 m' x (by
    rw [List.length_append] at h ⊢; rw [← length_md_pad hl]; exact h)
  have hd : d1 = d1' := Except.ok.inj ((h1.symm.trans he).trans h1')
  rw [h2, h2']
  apply congrArg
  apply Vector.toList_inj.1
  rw [e, e', hd, hl]

/-- A key of 16 bytes before a message, and a suffix: far below the bound. -/
example : (pad 64 8 (List.replicate 16 7#8 ++ ascii "amount=10") ++ ascii "&amount=9999").length = 76 := by decide +kernel
example : (Spec.Md.pad (List.replicate 16 7#8 ++ ascii "amount=10") ++ ascii "&amount=9999").length = 76 := by decide +kernel

/-- C90 applied to that message. -/
example : ∃ d d' : Model.Sha.HashValue 32, Model.Sha.sha256 (List.replicate 16 7#8 ++ ascii "amount=10") = .ok d ∧
    Model.Sha.sha256 (pad 64 8 (List.replicate 16 7#8 ++ ascii "amount=10") ++ ascii "&amount=9999") = .ok d' ∧
    d'.toList = extend256 d.toList 25 (ascii "&amount=9999") :=
  C90_sha256 (List.replicate 16 7#8 ++ ascii "amount=10") _ (by decide +kernel)
example : ∃ d d' : Model.Sha.HashValue 64, Model.Sha.sha512 (List.replicate 16 7#8 ++ ascii "amount=10") = .ok d ∧
    Model.Sha.sha512 (pad 128 16 (List.replicate 16 7#8 ++ ascii "amount=10") ++ ascii "&amount=9999") = .ok d' ∧
    d'.toList = extend512 d.toList 25 (ascii "&amount=9999") :=
  C90_sha512 (List.replicate 16 7#8 ++ ascii "amount=10") _ (by decide +kernel)
example : ∃ d d' : Model.Sha.HashValue 20, Model.Sha.sha1 (List.replicate 16 7#8 ++ ascii "amount=10") = .ok d ∧
    Model.Sha.sha1 (pad 64 8 (List.replicate 16 7#8 ++ ascii "amount=10") ++ ascii "&amount=9999") = .ok d' ∧
    d'.toList = extend1 d.toList 25 (ascii "&amount=9999") :=
  C90_sha1 (List.replicate 16 7#8 ++ ascii "amount=10") _ (by decide +kernel)
example : ∃ d d', Model.Md4.hash (List.replicate 16 7#8 ++ ascii "amount=10") = .ok d ∧
    Model.Md4.hash (Spec.Md.pad (List.replicate 16 7#8 ++ ascii "amount=10") ++ ascii "&amount=9999") = .ok d' ∧
    d'.toList = extendMd Spec.Md.md4New 48 d.toList 25 (ascii "&amount=9999") :=
  C90_md4 (List.replicate 16 7#8 ++ ascii "amount=10") _ (by decide +kernel)

end Verif.Props
