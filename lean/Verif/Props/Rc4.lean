import Verif.Proof.Rc4

/-! # Properties C11–C13: RC4 -/

namespace Verif.Props
open Verif Model Spec

/-- C11: decrypting with a fresh key stream undoes encryption, for every non-empty key and message. -/
theorem C11_rc4_roundtrip (key : List U8) (hkey : key ≠ []) (m : List U8) :
    ∃ ks ct, Rc4.new key = .ok ks ∧ Rc4.encrypt ks m = .ok ct ∧ ct.length = m.length ∧
      Rc4.decrypt ks ct = .ok m := by
  have hk : 0 < key.length := List.length_pos_iff.2 hkey
  obtain ⟨ct, h1, h2, h3⟩ := Rc4.encrypt_eq ⟨(Rc4.ksaN key hk 256 (by omega)).1, 0#8, 0#8⟩ m
  exact ⟨_, ct, Rc4.new_ok key hk, h1, h2, h3⟩


/-- C12: for every non-empty key and every `n`, the first `n` items of the key stream iterator are the
first `n` bytes of the published algorithm; the iterator has not ended, and its table is a permutation. -/
theorem C12_rc4_stream (key : List U8) (hkey : key ≠ []) :
    ∃ ks, Rc4.new key = .ok ks ∧ ∀ n, ∃ s',
      Keys Rc4.next ks ((List.range n).map fun i => BitVec.ofNat 8 (Rc4.stream (key.map BitVec.toNat) i)) s' ∧
      s'.state.toList.Perm ((List.range 256).map (BitVec.ofNat 8)) := by
  have hk : 0 < key.length := List.length_pos_iff.2 hkey
  refine ⟨_, Rc4.new_ok key hk, fun n => ?_⟩
  obtain ⟨s', h1, _, h2⟩ := Rc4.stream_keys key hk n
  exact ⟨s', h1, h2⟩

/-- C12, in terms of `encrypt`: byte `i` of the ciphertext is byte `i` of the plaintext xor byte `i` of the
published key stream. -/
theorem C12_rc4_encrypt (key : List U8) (hkey : key ≠ []) (m : List U8) :
    ∃ ks, Rc4.new key = .ok ks ∧ Rc4.encrypt ks m = .ok (List.zipWith (· ^^^ ·)
      ((List.range m.length).map fun i => BitVec.ofNat 8 (Rc4.stream (key.map BitVec.toNat) i)) m) := by
  have hk : 0 < key.length := List.length_pos_iff.2 hkey
  refine ⟨_, Rc4.new_ok key hk, ?_⟩
  obtain ⟨s', h1, _, h2⟩ := Rc4.stream_keys key hk m.length
  simp [Rc4.encrypt, streamEncrypt_keys h1 m (by simp)]

/-- The published key stream for the key "Key", on the specification side. -/
theorem rc4_stream_Key : (List.range 9).map (Spec.Rc4.stream [0x4b, 0x65, 0x79]) =
    [0xEB, 0x9F, 0x77, 0x81, 0xB7, 0x34, 0xCA, 0x72, 0xA7] := by decide +kernel

/-- The published test vector ("Key", "Plaintext"), obtained for the model through C12. -/
example : ∃ ks, Rc4.new [0x4b, 0x65, 0x79] = .ok ks ∧
    Rc4.encrypt ks [0x50, 0x6c, 0x61, 0x69, 0x6e, 0x74, 0x65, 0x78, 0x74]
      = .ok [0xBB, 0xF3, 0x16, 0xE8, 0xD9, 0x40, 0xAF, 0x0A, 0xD3] := by
  obtain ⟨ks, h1, h2⟩ := C12_rc4_encrypt [0x4b, 0x65, 0x79] (by simp)
    [0x50, 0x6c, 0x61, 0x69, 0x6e, 0x74, 0x65, 0x78, 0x74]
  refine ⟨ks, h1, h2.trans ?_⟩
  have e : ∀ f : Nat → Nat, (List.range 9).map (fun i => BitVec.ofNat 8 (f i)) =
      ((List.range 9).map f).map (BitVec.ofNat 8) := fun f => by simp
  show Except.ok (List.zipWith _ ((List.range 9).map fun i =>
    BitVec.ofNat 8 (Spec.Rc4.stream [0x4b, 0x65, 0x79] i)) _) = _
  rw [e, rc4_stream_Key]
  decide +kernel

/-- C13: the constructor panics exactly on the empty key. -/
theorem C13_rc4_new_panics (key : List U8) : (∃ e, Rc4.new key = .error e) ↔ key = [] := by
  constructor
  · rintro ⟨e, h⟩
    by_cases hk : 0 < key.length
    · rw [Rc4.new_ok key hk] at h; cases h
    · exact List.length_eq_zero_iff.1 (by omega)
  · rintro rfl; exact ⟨.divZero, rfl⟩

/-- C13: keys with the same 256-byte cyclic expansion give the same cipher. -/
theorem C13_rc4_key_equiv (k1 k2 : List U8) (h1 : k1 ≠ []) (h2 : k2 ≠ [])
    (h : ∀ i < 256, k1[i % k1.length]? = k2[i % k2.length]?) : Rc4.new k1 = Rc4.new k2 := by
  have h1' : 0 < k1.length := List.length_pos_iff.2 h1
  have h2' : 0 < k2.length := List.length_pos_iff.2 h2
  rw [Rc4.new_ok k1 h1', Rc4.new_ok k2 h2', Rc4.ksaN_congr k1 k2 h1' h2' h]

/-- C13, instance: a key and any number of repetitions of it. -/
theorem C13_rc4_repeated_key (key : List U8) (n : Nat) (hn : 1 ≤ n) :
    Rc4.new (List.replicate n key).flatten = Rc4.new key := by
  by_cases hk : key = []
  · subst hk; simp
  have hk' : 0 < key.length := List.length_pos_iff.2 hk
  have hlen : (List.replicate n key).flatten.length = n * key.length := by simp
  have hget : ∀ (n i : Nat), i < n * key.length →
      (List.replicate n key).flatten[i]? = key[i % key.length]? := by
    intro n
    induction n with
    | zero => simp
    | succ n ih =>
      intro i hi
      rw [List.replicate_succ, List.flatten_cons, List.getElem?_append]
      split
      · rename_i hlt; rw [Nat.mod_eq_of_lt hlt]
      · rename_i hge
        rw [Nat.add_mul] at hi
        rw [ih (i - key.length) (by omega)]
        congr 1
        rw [← Nat.mod_eq_sub_mod (by omega)]
  apply C13_rc4_key_equiv
  · intro h0; rw [h0] at hlen; have := Nat.mul_pos hn hk'; simp at hlen; omega
  · exact hk
  · intro i _
    have hpos : 0 < n * key.length := Nat.mul_pos hn hk'
    rw [hlen, hget n _ (Nat.mod_lt _ hpos), Nat.mod_mul_left_mod]

/-- C13, instance: keys that agree on their first 256 bytes. -/
theorem C13_rc4_long_keys (p s1 s2 : List U8) (hp : 256 ≤ p.length) :
    Rc4.new (p ++ s1) = Rc4.new (p ++ s2) := by
  have hne : p ≠ [] := by intro h; subst h; simp at hp
  apply C13_rc4_key_equiv _ _ (by simp [hne]) (by simp [hne])
  intro i hi
  rw [Nat.mod_eq_of_lt (by simp; omega), Nat.mod_eq_of_lt (by simp; omega),
    List.getElem?_append_left (by omega), List.getElem?_append_left (by omega)]

example : Rc4.new [1, 2, 1, 2] = Rc4.new [1, 2] := C13_rc4_repeated_key [1, 2] 2 (by decide)

/-- C11, C12 and C13 applied. -/
example : ∃ ks ct, Rc4.new [0x4b, 0x65, 0x79] = .ok ks ∧ Rc4.encrypt ks [1, 2, 3] = .ok ct ∧ ct.length = 3 ∧
    Rc4.decrypt ks ct = .ok [1, 2, 3] := C11_rc4_roundtrip _ (by decide) _
example : ∃ ks, Rc4.new [0x4b, 0x65, 0x79] = .ok ks ∧ ∀ n, ∃ s',
    Keys Rc4.next ks ((List.range n).map fun i => BitVec.ofNat 8 (Rc4.stream [0x4b, 0x65, 0x79] i)) s' ∧
    s'.state.toList.Perm ((List.range 256).map (BitVec.ofNat 8)) := C12_rc4_stream [0x4b, 0x65, 0x79] (by decide)
example : Rc4.new (List.replicate 300 7#8) = Rc4.new [7#8] :=
  C13_rc4_key_equiv _ _ (by decide) (by decide) (by decide +kernel)

end Verif.Props
