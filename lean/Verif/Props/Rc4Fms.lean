import Verif.Spec.Fms
import Verif.Props.Rc4Exact

/-! # C148: RC4 keys that begin with public bytes -/

namespace Verif.Props
open Verif Verif.Model Verif.Spec.Fms
open _root_.Verif.Spec.Rc4 (ksa swap)

theorem ksa_step (key : List Nat) (n : Nat) : ksa key (n + 1) =
    (swap (ksa key n).1 n (((ksa key n).2 + (ksa key n).1 n + key.getD (n % key.length) 0) % 256),
      ((ksa key n).2 + (ksa key n).1 n + key.getD (n % key.length) 0) % 256) := rfl

/-- The scheduling depends only on the bytes it has used. -/
theorem ksa_front (front rest : List Nat) (n : Nat) (hn : n ≤ front.length) : ksa (front ++ rest) n = ksa front n := by
  induction n with
  | zero => rfl
  | succ n ih =>
    have h1 : n % (front ++ rest).length = n := Nat.mod_eq_of_lt (by rw [List.length_append]; omega)
    have h2 : n % front.length = n := Nat.mod_eq_of_lt (by omega)
    have h3 : (front ++ rest).getD n 0 = front.getD n 0 := by
      simp only [List.getD_eq_getElem?_getD]
      rw [List.getElem?_append_left (by omega)]
    rw [ksa_step, ksa_step, ih (by omega), h1, h2, h3]

theorem ksa_j_lt (key : List Nat) (n : Nat) : (ksa key n).2 < 256 := by
  cases n with
  | zero => exact Nat.zero_lt_succ _
  | succ n => rw [ksa_step]; exact Nat.mod_lt _ (by omega)

/-- The tables are permutations. -/
theorem ksa_perm (key : List Nat) (n : Nat) (hn : n ≤ 256) : (∀ a, a < 256 → (ksa key n).1 a < 256) ∧
    ∀ a b, a < 256 → b < 256 → (ksa key n).1 a = (ksa key n).1 b → a = b := by
  induction n with
  | zero => exact ⟨fun a ha => ha, fun a b _ _ h => h⟩
  | succ n ih =>
    obtain ⟨h1, h2⟩ := ih (by omega)
    rw [ksa_step]
    generalize hj : ((ksa key n).2 + (ksa key n).1 n + key.getD (n % key.length) 0) % 256 = j
    have hj' : j < 256 := by rw [← hj]; exact Nat.mod_lt _ (by omega)
    have hn' : n < 256 := by omega
    generalize (ksa key n).1 = S at h1 h2
    have e : ∀ a, a < 256 → ∃ a', a' < 256 ∧ swap S n j a = S a' ∧ a' = (if a = n then j else if a = j then n else a) := by
      intro a ha
      refine ⟨_, ?_, ?_, rfl⟩
      · split
        · exact hj'
        · split <;> assumption
      · unfold swap; split
        · rfl
        · split <;> rfl
    constructor
    · intro a ha
      obtain ⟨a', ha', ea, _⟩ := e a ha
      show swap S n j a < 256
      rw [ea]; exact h1 _ ha'
    · intro a b ha hb hab
      obtain ⟨a', ha', ea, da⟩ := e a ha
      obtain ⟨b', hb', eb, db⟩ := e b hb
      have hab' : S a' = S b' := by rw [← ea, ← eb]; exact hab
      have := h2 a' b' ha' hb' hab'
      split at da <;> split at db <;> (try split at da) <;> (try split at db) <;> omega

theorem swap_other (S : Nat → Nat) (a b k : Nat) (ha : k ≠ a) (hb : k ≠ b) : swap S a b k = S k := by
  unfold swap; rw [if_neg ha, if_neg hb]

/-- What is left of the three places at the end of the scheduling. -/
theorem ksa_places (front key : List Nat) (hr : Resolved front) (hkey : ∀ n, n ≤ front.length → ksa key n = ksa front n)
    (hu : Undisturbed front key) (n : Nat) (hn : n ≤ 256) (hb : front.length < n) :
    (ksa key n).1 1 = (known front).1 1 ∧ (ksa key n).1 ((known front).1 1) = (known front).1 ((known front).1 1) ∧
    (ksa key n).1 front.length = (known front).1 (ksa key (front.length + 1)).2 := by
  obtain ⟨h256, hX, h1, hsum⟩ := hr
  induction n with
  | zero => omega
  | succ n ih =>
    obtain ⟨d1, d2, d3⟩ := hu n (by omega) (by omega)
    rcases Nat.lt_or_ge front.length n with h | h
    · obtain ⟨i1, i2, i3⟩ := ih (by omega) h
      have d3 := d3 h
      rw [ksa_step] at d1 d2 d3 ⊢
      simp only at d1 d2 d3 ⊢
      rw [swap_other _ _ _ _ (by omega) (Ne.symm d1), swap_other _ _ _ _ (by omega) (Ne.symm d2),
        swap_other _ _ _ _ (by omega) (Ne.symm d3)]
      exact ⟨i1, i2, i3⟩
    · have en : n = front.length := by omega
      subst en
      have e : ksa key front.length = known front := hkey _ (Nat.le_refl _)
      rw [ksa_step, e] at d1 d2 ⊢
      simp only at d1 d2 ⊢
      rw [swap_other _ _ _ _ (by omega) (Ne.symm d1), swap_other _ _ _ _ (by omega) (Ne.symm d2)]
      exact ⟨rfl, rfl, by unfold swap; rw [if_pos rfl]⟩

/-- The first byte of the key stream. -/
theorem first_byte (front key : List Nat) (hr : Resolved front) (hkey : ∀ n, n ≤ front.length → ksa key n = ksa front n)
    (hu : Undisturbed front key) : Spec.Rc4.stream key 0 = (known front).1 (ksa key (front.length + 1)).2 := by
  obtain ⟨p1, p2, p3⟩ := ksa_places front key hr hkey hu 256 (Nat.le_refl _) hr.1
  obtain ⟨h256, hX, h1, hsum⟩ := hr
  rw [← p3]
  unfold Spec.Rc4.stream
  rw [rc4_after_succ, rc4_after_zero]
  generalize (ksa key 256).1 = S at p1 p2 p3 ⊢
  show swap S ((0 + 1) % 256) ((0 + S ((0 + 1) % 256)) % 256)
      ((swap S ((0 + 1) % 256) ((0 + S ((0 + 1) % 256)) % 256) ((0 + 1) % 256) +
        swap S ((0 + 1) % 256) ((0 + S ((0 + 1) % 256)) % 256)
          ((0 + S ((0 + 1) % 256)) % 256)) % 256) = _
  rw [show (0 + 1) % 256 = 1 from rfl, p1, Nat.zero_add]
  generalize hXe : (known front).1 1 = X at *
  rw [Nat.mod_eq_of_lt (show X < 256 by omega)]
  have e1 : swap S 1 X 1 = (known front).1 X := by unfold swap; rw [if_pos rfl, p2]
  have e2 : swap S 1 X X = X := by
    unfold swap
    by_cases h : X = 1
    · subst h; rw [if_pos rfl, p1]
    · rw [if_neg h, if_pos rfl, p1]
  rw [e1, e2, Nat.add_comm, hsum, swap_other _ _ _ _ (by omega) (by omega)]

/-- C148: if the known bytes at the start of a key resolve, and the rest of the key does not disturb three places of the
table, the next byte of the key is calculated from the first byte of any message and of its ciphertext. -/
theorem C148_next_byte (front rest : List U8) (k : U8) (hr : Resolved (front.map BitVec.toNat))
    (hu : Undisturbed (front.map BitVec.toNat) ((front ++ k :: rest).map BitVec.toNat)) (m : U8) (ms : List U8) :
    ∃ ks c cs, Rc4.new (front ++ k :: rest) = .ok ks ∧ Rc4.encrypt ks (m :: ms) = .ok (c :: cs) ∧
      guess (front.map BitVec.toNat) (c ^^^ m).toNat = k.toNat := by
  obtain ⟨ks, hn, he⟩ := C12_rc4_encrypt (front ++ k :: rest) (by simp) (m :: ms)
  have hkey : ∀ n, n ≤ (front.map BitVec.toNat).length →
      ksa ((front ++ k :: rest).map BitVec.toNat) n = ksa (front.map BitVec.toNat) n := fun n hn => by
    rw [List.map_append]; exact ksa_front _ _ n hn
  have hz := first_byte _ _ hr hkey hu
  have hkB : ksa ((front ++ k :: rest).map BitVec.toNat) ((front.map BitVec.toNat).length + 1) =
      (swap (known (front.map BitVec.toNat)).1 (front.map BitVec.toNat).length
        (((known (front.map BitVec.toNat)).2 + (known (front.map BitVec.toNat)).1 (front.map BitVec.toNat).length + k.toNat) % 256),
        ((known (front.map BitVec.toNat)).2 + (known (front.map BitVec.toNat)).1 (front.map BitVec.toNat).length + k.toNat) % 256) := by
    rw [ksa_step, hkey _ (Nat.le_refl _)]
    have e : ((front ++ k :: rest).map BitVec.toNat).getD
        ((front.map BitVec.toNat).length % ((front ++ k :: rest).map BitVec.toNat).length) 0 = k.toNat := by
      rw [Nat.mod_eq_of_lt (by simp), List.getD_eq_getElem?_getD, List.map_append,
        List.getElem?_append_right (Nat.le_refl _)]
      simp
    rw [e]
    rfl
  rw [hkB] at hz
  obtain ⟨h256, hX, h1, hsum⟩ := hr
  generalize hf : front.map BitVec.toNat = f at *
  obtain ⟨q1, q2⟩ := ksa_perm f f.length (by omega)
  have hj := ksa_j_lt f f.length
  generalize hj' : ((known f).2 + (known f).1 f.length + k.toNat) % 256 = j' at hz
  have hj'' : j' < 256 := by rw [← hj']; exact Nat.mod_lt _ (by omega)
  have hzl : Spec.Rc4.stream ((front ++ k :: rest).map BitVec.toNat) 0 < 256 := by rw [hz]; exact q1 _ hj''
  refine ⟨ks, _, _, hn, by
    rw [he, List.length_cons, List.range_succ_eq_map, List.map_cons, List.zipWith_cons_cons], ?_⟩
  have ec : ∀ a b : U8, a ^^^ b ^^^ b = a := fun a b => by simp [BitVec.xor_assoc]
  rw [ec, BitVec.toNat_ofNat, Nat.mod_eq_of_lt hzl, hz]
  -- the place of the byte in the table
  have hidx : ((List.range 256).map (known f).1).idxOf ((known f).1 j') = j' := by
    have hnd : ((List.range 256).map (known f).1).Nodup :=
      List.Nodup.map_on (fun a ha b hb h => q2 a b (List.mem_range.1 ha) (List.mem_range.1 hb) h) List.nodup_range
    have := hnd.idxOf_getElem j' (by simpa using hj'')
    rwa [List.getElem_map, List.getElem_range] at this
  show (((List.range 256).map (known f).1).idxOf ((known f).1 j') + 512 - (known f).2 - (known f).1 f.length) % 256 = k.toNat
  rw [hidx]
  have := q1 f.length h256
  have hk := k.isLt
  have e1 : (known f).2 < 256 := hj
  have e2 : (known f).1 f.length < 256 := this
  omega

/-- C148: the initialisation vectors `(A + 3, 255, x)` resolve with the `A` bytes of the secret that are known already,
unless one of the steps with them, which can be checked, touches the first two places. -/
theorem C148_weak_vectors (A x : Nat) (secret : List Nat) (hA : secret.length = A) (hA' : A < 253)
    (hj : ∀ n, 2 ≤ n → n < A + 3 → (ksa ([A + 3, 255, x] ++ secret) (n + 1)).2 ≠ 0 ∧
      (ksa ([A + 3, 255, x] ++ secret) (n + 1)).2 ≠ 1) : Resolved ([A + 3, 255, x] ++ secret) := by
  have hlen : ([A + 3, 255, x] ++ secret).length = A + 3 := by simp [hA]
  have inv : ∀ n, 2 ≤ n → n ≤ A + 3 → (ksa ([A + 3, 255, x] ++ secret) n).1 0 = A + 3 ∧
      (ksa ([A + 3, 255, x] ++ secret) n).1 1 = 0 := by
    intro n h2 hn
    induction n with
    | zero => omega
    | succ n ih =>
      rcases Nat.lt_or_ge 1 n with h | h
      · obtain ⟨i1, i2⟩ := ih (by omega) (by omega)
        obtain ⟨d0, d1⟩ := hj n (by omega) (by omega)
        rw [ksa_step] at d0 d1 ⊢
        simp only at d0 d1 ⊢
        rw [swap_other _ _ _ _ (by omega) (Ne.symm d0), swap_other _ _ _ _ (by omega) (Ne.symm d1)]
        exact ⟨i1, i2⟩
      · have en : n = 1 := by omega
        subst en
        rw [ksa_front _ secret 2 (by simp)]
        have e0 : ksa [A + 3, 255, x] 1 = (swap (fun k => k) 0 (A + 3), A + 3) := by
          rw [ksa_step]
          have : ((ksa [A + 3, 255, x] 0).2 + (ksa [A + 3, 255, x] 0).1 0 + [A + 3, 255, x].getD (0 % [A + 3, 255, x].length) 0) % 256
              = A + 3 := by
            show (0 + 0 + (A + 3)) % 256 = A + 3
            omega
          rw [this]; rfl
        have e1 : ksa [A + 3, 255, x] 2 = (swap (swap (fun k => k) 0 (A + 3)) 1 (A + 3), A + 3) := by
          rw [ksa_step, e0]
          have : ((A + 3) + swap (fun k => k) 0 (A + 3) 1 + [A + 3, 255, x].getD (1 % [A + 3, 255, x].length) 0) % 256 = A + 3 := by
            rw [swap_other _ _ _ _ (by omega) (by omega)]
            show (A + 3 + 1 + 255) % 256 = A + 3
            omega
          simp only [this]
        rw [e1]
        unfold swap
        constructor <;> simp
  obtain ⟨i0, i1⟩ := inv (A + 3) (by omega) (Nat.le_refl _)
  unfold Resolved known
  rw [hlen, i1, i0]
  omega

/-- With none of the secret known: all of the vectors `(3, 255, x)` but two. -/
theorem C148_first_vectors (x : Nat) (h1 : x % 256 ≠ 251) (h2 : x % 256 ≠ 252) : Resolved [3, 255, x] := by
  refine C148_weak_vectors 0 x [] rfl (by omega) fun n hn hn' => ?_
  have en : n = 2 := by omega
  subst en
  have e : (ksa ([0 + 3, 255, x] ++ []) 3).2 = (5 + x) % 256 := by
    simp [ksa, swap]
  rw [e]
  omega

/-- Not vacuous: the secret 0x13, 0x37, .. behind the vector (3, 255, 17). The first byte of the key stream is 42, which
gives 0x13. -/
example : Resolved [3, 255, 17] ∧ Undisturbed [3, 255, 17] [3, 255, 17, 0x13, 0x37, 0xc0, 0xde, 0x42] ∧
    Spec.Rc4.stream [3, 255, 17, 0x13, 0x37, 0xc0, 0xde, 0x42] 0 = 42 ∧ guess [3, 255, 17] 42 = 0x13 := by
  refine ⟨C148_first_vectors 17 (by decide) (by decide), ?_, ?_, ?_⟩ <;> decide +kernel

end Verif.Props
