import Verif.Props.Extend
import Verif.Proof.RsaMessage
import Verif.Spec.Multi
import Mathlib.Data.Finset.Card
import Mathlib.Combinatorics.Pigeonhole

/-! # C150: many messages with one hash value -/

namespace Verif.Props
open Verif
open _root_.Verif.Spec.Multi (Finds path messages)

namespace Multi

/-- A padding that only appends, at most `G` bytes, a number that depends on the length only. -/
def Appends (pad : List U8 → List U8) (G : Nat) : Prop :=
  ∃ glue : Nat → List U8, ∀ a, pad a = a ++ glue a.length ∧ (glue a.length).length ≤ G

/-- Equal hash values of equally long messages stay equal when both are padded and continued in the same way. -/
def Extends {δ : Type} (H : List U8 → R δ) (pad : List U8 → List U8) (lim : Nat) : Prop :=
  ∀ a b z, a.length = b.length → (pad a ++ z).length < lim → H a = H b → H (pad a ++ z) = H (pad b ++ z)

section
variable {δ : Type} {H : List U8 → R δ} {pad : List U8 → List U8} {lim B G : Nat} {find : List U8 → List U8 × List U8}

theorem path_length (hp : Appends pad G) (hf : Finds H lim B find) (k : Nat) (hk : k * (B + G) < lim) :
    (path pad find k).length ≤ k * (B + G) := by
  obtain ⟨glue, hg⟩ := hp
  induction k with
  | zero => exact Nat.zero_le _
  | succ k ih =>
    rw [Nat.succ_mul] at hk ⊢
    have h1 := ih (by omega)
    have h2 := (hf (path pad find k) (by omega)).2.2.1
    have h3 := (hg (path pad find k ++ (find (path pad find k)).1)).2
    simp only [path]
    rw [List.length_append] at h3
    rw [(hg _).1, List.length_append, List.length_append]
    omega

theorem messages_length (k : Nat) : (messages pad find k).length = 2 ^ k := by
  induction k with
  | zero => rfl
  | succ k ih =>
    simp only [messages, List.length_flatMap, List.length_cons, List.length_nil, Nat.zero_add, Nat.reduceAdd]
    rw [List.map_const', List.sum_replicate, ih, Nat.pow_succ, Nat.nsmul_eq_mul]

theorem messages_same (hp : Appends pad G) (he : Extends H pad lim) (hf : Finds H lim B find) (k : Nat)
    (hk : k * (B + G) < lim) (m : List U8) (hm : m ∈ messages pad find k) :
    m.length = (path pad find k).length ∧
      ∀ z, (m ++ z).length < lim → H (m ++ z) = H (path pad find k ++ z) := by
  have hp' := hp
  obtain ⟨glue, hg⟩ := hp'
  induction k generalizing m with
  | zero =>
    simp only [messages, List.mem_singleton] at hm
    subst hm
    exact ⟨rfl, fun z _ => rfl⟩
  | succ k ih =>
    have hk0 := hk
    rw [Nat.succ_mul] at hk0
    have hlen := path_length hp hf k (by omega)
    obtain ⟨-, h2, h3, h4⟩ := hf (path pad find k) (by omega)
    simp only [messages, List.mem_flatMap] at hm
    obtain ⟨m0, hm0, hm⟩ := hm
    obtain ⟨i1, i2⟩ := ih (by omega) m0 hm0
    obtain ⟨x, hx, hxl, hxH⟩ : ∃ x, m = pad (m0 ++ x) ∧ x.length = (find (path pad find k)).1.length ∧
        H (path pad find k ++ x) = H (path pad find k ++ (find (path pad find k)).1) := by
      simp only [List.mem_cons, List.not_mem_nil, or_false] at hm
      rcases hm with h | h
      · exact ⟨_, h, rfl, rfl⟩
      · exact ⟨_, h, h2.symm, h4.symm⟩
    subst hx
    have hl : (m0 ++ x).length = (path pad find k ++ (find (path pad find k)).1).length := by
      rw [List.length_append, List.length_append]; omega
    simp only [path]
    refine ⟨by rw [(hg _).1, (hg (path _ _ _ ++ _)).1, List.length_append (as := m0 ++ x), List.length_append (as := path _ _ _ ++ _), hl], fun z hz => ?_⟩
    refine he _ _ z hl hz ?_
    rw [i2 x (by rw [List.length_append]; omega), hxH]

theorem messages_nodup (hp : Appends pad G) (he : Extends H pad lim) (hf : Finds H lim B find) (k : Nat)
    (hk : k * (B + G) < lim) : (messages pad find k).Nodup := by
  have hp' := hp
  obtain ⟨glue, hg⟩ := hp'
  have pad_inj : ∀ a b : List U8, a.length = b.length → pad a = pad b → a = b := by
    intro a b hl h
    rw [(hg a).1, (hg b).1] at h
    exact (List.append_inj h hl).1
  induction k with
  | zero => exact List.nodup_singleton _
  | succ k ih =>
    rw [Nat.succ_mul] at hk
    have hlen := path_length hp hf k (by omega)
    obtain ⟨h1, h2, -, -⟩ := hf (path pad find k) (by omega)
    simp only [messages]
    rw [List.nodup_flatMap]
    refine ⟨fun m _ => ?_, ?_⟩
    · simp only [List.nodup_cons, List.mem_cons, List.not_mem_nil, or_false, not_false_eq_true, List.nodup_nil, and_true]
      intro h
      exact h1 (List.append_cancel_left (pad_inj _ _ (by rw [List.length_append, List.length_append, h2]) h))
    · refine (ih (by omega)).imp_of_mem fun {a b} ha hb hne => ?_
      have la := (messages_same hp he hf k (by omega) a ha).1
      have lb := (messages_same hp he hf k (by omega) b hb).1
      intro w hw hw'
      simp only [List.mem_cons, List.not_mem_nil, or_false] at hw hw'
      have key : ∀ x y : List U8, x.length = y.length → pad (a ++ x) = pad (b ++ y) → False := fun x y hxy h =>
        hne (List.append_inj (pad_inj _ _ (by rw [List.length_append, List.length_append]; omega) h) (by omega)).1
      rcases hw with rfl | rfl <;> rcases hw' with h | h
      · exact key _ _ rfl h
      · exact key _ _ h2 h
      · exact key _ _ h2.symm h
      · exact key _ _ rfl h

/-- The messages are different, equally long, `2 ^ k` in number, and have one hash value. -/
theorem multi (hp : Appends pad G) (he : Extends H pad lim) (hf : Finds H lim B find) (k : Nat) (hk : k * (B + G) < lim) :
    (messages pad find k).length = 2 ^ k ∧ (messages pad find k).Nodup ∧
      ∀ m ∈ messages pad find k, ∀ m' ∈ messages pad find k, m.length = m'.length ∧ H m = H m' := by
  refine ⟨messages_length k, messages_nodup hp he hf k hk, fun m hm m' hm' => ?_⟩
  obtain ⟨a1, a2⟩ := messages_same hp he hf k hk m hm
  obtain ⟨b1, b2⟩ := messages_same hp he hf k hk m' hm'
  have hl := path_length hp hf k hk
  have a3 := a2 [] (by rw [List.append_nil]; omega)
  have b3 := b2 [] (by rw [List.append_nil]; omega)
  rw [List.append_nil] at a3 b3
  exact ⟨a1.trans b1.symm, a3.trans b3.symm⟩

end

/-- A second hash function with fewer than `2 ^ k` values does not tell all of `2 ^ k` messages apart. -/
theorem second {γ : Type} (ms : List (List U8)) (k : Nat) (hl : ms.length = 2 ^ k) (hn : ms.Nodup) (g : List U8 → γ)
    (values : Finset γ) (hv : ∀ m ∈ ms, g m ∈ values) (hc : values.card < 2 ^ k) :
    ∃ m ∈ ms, ∃ m' ∈ ms, m ≠ m' ∧ g m = g m' := by
  classical
  have hcard : ms.toFinset.card = 2 ^ k := by rw [List.toFinset_card_of_nodup hn, hl]
  obtain ⟨x, hx, y, hy, hne, hxy⟩ := Finset.exists_ne_map_eq_of_card_lt_of_maps_to (s := ms.toFinset) (t := values)
    (by rw [hcard]; exact hc) (f := g) (fun m hm => hv m (List.mem_toFinset.1 hm))
  exact ⟨x, List.mem_toFinset.1 hx, y, List.mem_toFinset.1 hy, hne, hxy⟩

/-- There always is such a search: more than `N` bytes can be written in more ways than `N` bytes. -/
theorem exists_finds {N : Nat} (H : List U8 → R (Vector U8 N)) (lim : Nat)
    (hok : ∀ m : List U8, m.length < lim → ∃ d, H m = .ok d) : ∃ find, Finds H lim (N + 1) find := by
  have key : ∀ p : List U8, ∃ xy : List U8 × List U8, p.length + (N + 1) < lim →
      xy.1 ≠ xy.2 ∧ xy.1.length = xy.2.length ∧ xy.1.length ≤ N + 1 ∧ H (p ++ xy.1) = H (p ++ xy.2) := by
    intro p
    by_cases hp : p.length + (N + 1) < lim
    · have hlen : ∀ i : Nat, (p ++ natToBE (N + 1) i).length < lim := fun i => by
        rw [List.length_append, length_natToBE]; exact hp
      choose d hd using fun i => hok _ (hlen i)
      obtain ⟨x, hx, y, hy, hne, hxy⟩ := Finset.exists_ne_map_eq_of_card_lt_of_maps_to (s := Finset.range (256 ^ (N + 1)))
        (t := Finset.range (256 ^ N)) (by
          rw [Finset.card_range, Finset.card_range]; exact Nat.pow_lt_pow_right (by omega) (by omega))
        (f := fun i => beVal (d i).toList) (fun i _ => by
          have := Model.Oaep.beVal_lt (d i).toList
          rw [Vector.length_toList] at this
          exact Finset.mem_coe.2 (Finset.mem_range.2 this))
      refine ⟨(natToBE (N + 1) x, natToBE (N + 1) y), fun _ => ⟨fun h => hne ?_, by simp [length_natToBE],
        by simp [length_natToBE], ?_⟩⟩
      · have := congrArg beVal h
        rwa [beVal_natToBE, beVal_natToBE, Nat.mod_eq_of_lt (Finset.mem_range.1 hx), Nat.mod_eq_of_lt (Finset.mem_range.1 hy)]
          at this
      · show H _ = H _
        rw [hd, hd]
        apply congrArg
        apply Vector.toList_inj.1
        have h1 := natToBE_beVal (d x).toList
        have h2 := natToBE_beVal (d y).toList
        rw [Vector.length_toList] at h1 h2
        rw [← h1, ← h2]
        exact congrArg _ hxy
    · exact ⟨([], []), fun h => absurd h hp⟩
  choose find hfind using key
  exact ⟨find, hfind⟩

theorem appends_sha (N L : Nat) (hN : 0 < N) : Appends (Spec.Sha.pad N L) (N + L) :=
  ⟨fun len => 0x80#8 :: List.replicate ((2 * N - 1 - L - len % N) % N) 0#8 ++ natToBE L (8 * len), fun a => by
    refine ⟨by simp [Spec.Sha.pad], ?_⟩
    have := Nat.mod_lt (2 * N - 1 - L - a.length % N) hN
    simp [length_natToBE]
    omega⟩

theorem appends_md : Appends Spec.Md.pad 72 :=
  ⟨fun len => 0x80#8 :: List.replicate ((119 - len % 64) % 64) 0#8 ++ natToLE 8 (8 * len), fun a => by
    refine ⟨by simp [Spec.Md.pad], ?_⟩
    have := Nat.mod_lt (119 - a.length % 64) (show 0 < 64 by omega)
    simp [length_natToLE]
    omega⟩

end Multi

open Multi

/-- C150: MD4. `find` is any way to find pairs, of any length; it is used `k` times. -/
theorem C150_md4 (find : List U8 → List U8 × List U8) (B k : Nat) (hf : Finds Model.Md4.hash (2 ^ 61) B find)
    (hk : k * (B + 72) < 2 ^ 61) :
    (messages Spec.Md.pad find k).length = 2 ^ k ∧ (messages Spec.Md.pad find k).Nodup ∧
      ∀ m ∈ messages Spec.Md.pad find k, ∀ m' ∈ messages Spec.Md.pad find k,
        m.length = m'.length ∧ Model.Md4.hash m = Model.Md4.hash m' :=
  multi appends_md (fun a b z hl h he => C90_collisions_extend_md4 a b z hl h he) hf k hk

/-- C150: MD5. -/
theorem C150_md5 (find : List U8 → List U8 × List U8) (B k : Nat) (hf : Finds Model.Md5.hash (2 ^ 61) B find)
    (hk : k * (B + 72) < 2 ^ 61) :
    (messages Spec.Md.pad find k).length = 2 ^ k ∧ (messages Spec.Md.pad find k).Nodup ∧
      ∀ m ∈ messages Spec.Md.pad find k, ∀ m' ∈ messages Spec.Md.pad find k,
        m.length = m'.length ∧ Model.Md5.hash m = Model.Md5.hash m' :=
  multi appends_md (fun a b z hl h he => C90_collisions_extend_md5 a b z hl h he) hf k hk

/-- C150: SHA-1. -/
theorem C150_sha1 (find : List U8 → List U8 × List U8) (B k : Nat) (hf : Finds Model.Sha.sha1 (2 ^ 61) B find)
    (hk : k * (B + 72) < 2 ^ 61) :
    (messages (Spec.Sha.pad 64 8) find k).length = 2 ^ k ∧ (messages (Spec.Sha.pad 64 8) find k).Nodup ∧
      ∀ m ∈ messages (Spec.Sha.pad 64 8) find k, ∀ m' ∈ messages (Spec.Sha.pad 64 8) find k,
        m.length = m'.length ∧ Model.Sha.sha1 m = Model.Sha.sha1 m' :=
  multi (appends_sha 64 8 (by omega)) (fun a b z hl h he => C90_collisions_extend_sha1 a b z hl h he) hf k hk

/-- C150: SHA-256. -/
theorem C150_sha256 (find : List U8 → List U8 × List U8) (B k : Nat) (hf : Finds Model.Sha.sha256 (2 ^ 61) B find)
    (hk : k * (B + 72) < 2 ^ 61) :
    (messages (Spec.Sha.pad 64 8) find k).length = 2 ^ k ∧ (messages (Spec.Sha.pad 64 8) find k).Nodup ∧
      ∀ m ∈ messages (Spec.Sha.pad 64 8) find k, ∀ m' ∈ messages (Spec.Sha.pad 64 8) find k,
        m.length = m'.length ∧ Model.Sha.sha256 m = Model.Sha.sha256 m' :=
  multi (appends_sha 64 8 (by omega)) (fun a b z hl h he => C90_collisions_extend a b z hl h he) hf k hk

/-- C150: SHA-512. -/
theorem C150_sha512 (find : List U8 → List U8 × List U8) (B k : Nat) (hf : Finds Model.Sha.sha512 (2 ^ 64) B find)
    (hk : k * (B + 144) < 2 ^ 64) :
    (messages (Spec.Sha.pad 128 16) find k).length = 2 ^ k ∧ (messages (Spec.Sha.pad 128 16) find k).Nodup ∧
      ∀ m ∈ messages (Spec.Sha.pad 128 16) find k, ∀ m' ∈ messages (Spec.Sha.pad 128 16) find k,
        m.length = m'.length ∧ Model.Sha.sha512 m = Model.Sha.sha512 m' :=
  multi (appends_sha 128 16 (by omega)) (fun a b z hl h he => C90_collisions_extend_sha512 a b z hl h he) hf k hk

/-- C150: so MD5 and SHA-1 together are hardly better than the better of them: 161 pairs of MD5 (each of at most `B` bytes)
contain two messages with the same MD5 and the same SHA-1. -/
theorem C150_md5_and_sha1 (find : List U8 → List U8 × List U8) (B : Nat) (hf : Finds Model.Md5.hash (2 ^ 61) B find)
    (hB : 161 * (B + 72) < 2 ^ 61) :
    ∃ m ∈ messages Spec.Md.pad find 161, ∃ m' ∈ messages Spec.Md.pad find 161, m ≠ m' ∧
      Model.Md5.hash m = Model.Md5.hash m' ∧ Model.Sha.sha1 m = Model.Sha.sha1 m' := by
  obtain ⟨h1, h2, h3⟩ := C150_md5 find B 161 hf hB
  have hlen : ∀ m ∈ messages Spec.Md.pad find 161, m.length < 2 ^ 61 := fun m hm => by
    have := (messages_same appends_md (fun a b z hl h he => C90_collisions_extend_md5 a b z hl h he) hf 161 hB m hm).1
    have := path_length appends_md hf 161 hB
    omega
  classical
  let g : List U8 → Nat := fun m => match Model.Sha.sha1 m with | .ok d => beVal d.toList | .error _ => 0
  obtain ⟨m, hm, m', hm', hne, hg⟩ := second _ 161 h1 h2 g (Finset.range (256 ^ 20)) (fun m hm => by
    obtain ⟨d, hd, _⟩ := C25_sha1 m (hlen m hm)
    have := Model.Oaep.beVal_lt d.toList
    rw [Vector.length_toList] at this
    simp only [g, hd]
    exact Finset.mem_range.2 this) (by
    rw [Finset.card_range, show (256 : Nat) = 2 ^ 8 by decide, ← Nat.pow_mul]
    exact Nat.pow_lt_pow_right (by omega) (by omega))
  obtain ⟨d, hd, _⟩ := C25_sha1 m (hlen m hm)
  obtain ⟨d', hd', _⟩ := C25_sha1 m' (hlen m' hm')
  refine ⟨m, hm, m', hm', hne, (h3 m hm m' hm').2, ?_⟩
  simp only [g, hd, hd'] at hg
  rw [hd, hd']
  apply congrArg
  apply Vector.toList_inj.1
  have e1 := natToBE_beVal d.toList
  have e2 := natToBE_beVal d'.toList
  rw [Vector.length_toList] at e1 e2
  rw [← e1, ← e2, hg]

/-- The hypotheses can be met for all five functions: pairs of one byte more than the hash value has always exist. -/
theorem C150_pairs_exist : (∃ find, Finds Model.Md4.hash (2 ^ 61) 17 find) ∧ (∃ find, Finds Model.Md5.hash (2 ^ 61) 17 find) ∧
    (∃ find, Finds Model.Sha.sha1 (2 ^ 61) 21 find) ∧ (∃ find, Finds Model.Sha.sha256 (2 ^ 61) 33 find) ∧
    ∃ find, Finds Model.Sha.sha512 (2 ^ 64) 65 find :=
  ⟨exists_finds _ _ fun m h => (C33_md4 m h).imp fun _ h => h.1, exists_finds _ _ fun m h => (C34_md5 m h).imp fun _ h => h.1,
    exists_finds _ _ fun m h => (C25_sha1 m h).imp fun _ h => h.1,
    exists_finds _ _ fun m h => (C26_sha256 m h).imp fun _ h => h.1,
    exists_finds _ _ fun m h => (C27_sha512 m h).imp fun _ h => h.1⟩

/-- Two different messages with the same MD5 and the same SHA-1, made from 161 pairs of 17 bytes. -/
example : ∃ find, ∃ m ∈ messages Spec.Md.pad find 161, ∃ m' ∈ messages Spec.Md.pad find 161, m ≠ m' ∧
    Model.Md5.hash m = Model.Md5.hash m' ∧ Model.Sha.sha1 m = Model.Sha.sha1 m' := by
  obtain ⟨find, hf⟩ := C150_pairs_exist.2.1
  exact ⟨find, C150_md5_and_sha1 find 17 hf (by decide)⟩

end Verif.Props
