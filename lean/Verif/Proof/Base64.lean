import Verif.Model.Pem
import Verif.Spec.Pem
import Mathlib.Data.List.GetD

/-! # The base64 codec -/

namespace Verif.Model.Base64
open Verif

theorem alphabet_length : alphabet.length = 64 := by decide

theorem value_symbol : ∀ n, n < 64 → value (symbol n) = some n := by decide +kernel

theorem symbol_value {c : Char} {n : Nat} (h : value c = some n) : n < 64 ∧ symbol n = c := by
  unfold value at h
  obtain ⟨h1, h2, _⟩ := List.idxOf?_eq_some_iff.1 h
  rw [alphabet_length] at h1
  refine ⟨h1, ?_⟩
  unfold symbol
  rw [List.getD_eq_getElem _ _ (by rw [alphabet_length]; exact h1)]
  exact h2

theorem value_pad : value '=' = none := by decide +kernel

theorem symbol_ne_pad (n : Nat) (h : n < 64) : symbol n ≠ '=' := by
  intro e
  have := value_symbol n h
  rw [e, value_pad] at this
  cases this

theorem ofNat_toNat (a : U8) : BitVec.ofNat 8 a.toNat = a := by simp

theorem decode_encode (data : List U8) : decode (encode data) = some data := by
  induction data using encode.induct with
  | case1 => rfl
  | case2 a =>
    have ha := a.isLt
    unfold encode decode
    rw [if_pos ⟨rfl, rfl⟩, if_pos rfl, value_symbol _ (by omega), value_symbol _ (by omega)]
    simp only [Option.bind_eq_bind, Option.bind_some]
    rw [if_pos (by omega)]
    have e : a.toNat / 4 * 4 + a.toNat % 4 * 16 / 16 = a.toNat := by omega
    rw [e, ofNat_toNat]
  | case3 a b =>
    have ha := a.isLt
    have hb := b.isLt
    unfold encode decode
    rw [if_pos ⟨rfl, rfl⟩, if_neg (symbol_ne_pad _ (by omega)), value_symbol _ (by omega), value_symbol _ (by omega),
      value_symbol _ (by omega)]
    simp only [Option.bind_eq_bind, Option.bind_some]
    rw [if_pos (by omega)]
    have e : a.toNat / 4 * 4 + (a.toNat % 4 * 16 + b.toNat / 16) / 16 = a.toNat := by omega
    have e2 : (a.toNat % 4 * 16 + b.toNat / 16) % 16 * 16 + b.toNat % 16 * 4 / 4 = b.toNat := by omega
    rw [e, e2, ofNat_toNat, ofNat_toNat]
  | case4 a b c rest ih =>
    have ha := a.isLt
    have hb := b.isLt
    have hc := c.isLt
    unfold encode decode
    rw [if_neg (by rintro ⟨_, h⟩; exact symbol_ne_pad _ (by omega) h), value_symbol _ (by omega), value_symbol _ (by omega),
      value_symbol _ (by omega), value_symbol _ (by omega)]
    simp only [Option.bind_eq_bind, Option.bind_some, ih]
    have e : a.toNat / 4 * 4 + (a.toNat % 4 * 16 + b.toNat / 16) / 16 = a.toNat := by omega
    have e2 : (a.toNat % 4 * 16 + b.toNat / 16) % 16 * 16 + (b.toNat % 16 * 4 + c.toNat / 64) / 4 = b.toNat := by omega
    have e3 : (b.toNat % 16 * 4 + c.toNat / 64) % 4 * 64 + c.toNat % 64 = c.toNat := by omega
    rw [e, e2, e3, ofNat_toNat, ofNat_toNat, ofNat_toNat]

theorem encode_decode (text : List Char) (data : List U8) (h : decode text = some data) : encode data = text := by
  induction text using decode.induct generalizing data with
  | case1 => cases h; rfl
  | case2 c0 c1 c3 rest h1 =>
    unfold decode at h
    rw [if_pos h1] at h
    obtain ⟨rfl, rfl⟩ := h1
    · rw [if_pos rfl] at h
      simp only [Option.bind_eq_bind, Option.bind_eq_some_iff] at h
      obtain ⟨w, hw, x, hx, h⟩ := h
      obtain ⟨hw1, hw2⟩ := symbol_value hw
      obtain ⟨hx1, hx2⟩ := symbol_value hx
      by_cases h3 : x % 16 = 0
      · rw [if_pos h3] at h
        cases h
        have e : (BitVec.ofNat 8 (w * 4 + x / 16)).toNat = w * 4 + x / 16 := by
          rw [BitVec.toNat_ofNat, Nat.mod_eq_of_lt (by omega)]
        unfold encode
        rw [e]
        have e1 : (w * 4 + x / 16) / 4 = w := by omega
        have e2 : (w * 4 + x / 16) % 4 * 16 = x := by omega
        rw [e1, e2, hw2, hx2]
      · rw [if_neg h3] at h; cases h
  | case3 c0 c1 c2 c3 rest h1 h2 =>
    unfold decode at h
    rw [if_pos h1] at h
    obtain ⟨rfl, rfl⟩ := h1
    · rw [if_neg h2] at h
      simp only [Option.bind_eq_bind, Option.bind_eq_some_iff] at h
      obtain ⟨w, hw, x, hx, y, hy, h⟩ := h
      obtain ⟨hw1, hw2⟩ := symbol_value hw
      obtain ⟨hx1, hx2⟩ := symbol_value hx
      obtain ⟨hy1, hy2⟩ := symbol_value hy
      by_cases h3 : y % 4 = 0
      · rw [if_pos h3] at h
        cases h
        have e : (BitVec.ofNat 8 (w * 4 + x / 16)).toNat = w * 4 + x / 16 := by
          rw [BitVec.toNat_ofNat, Nat.mod_eq_of_lt (by omega)]
        have e' : (BitVec.ofNat 8 (x % 16 * 16 + y / 4)).toNat = x % 16 * 16 + y / 4 := by
          rw [BitVec.toNat_ofNat, Nat.mod_eq_of_lt (by omega)]
        unfold encode
        rw [e, e']
        have e1 : (w * 4 + x / 16) / 4 = w := by omega
        have e2 : (w * 4 + x / 16) % 4 * 16 + (x % 16 * 16 + y / 4) / 16 = x := by omega
        have e3 : (x % 16 * 16 + y / 4) % 16 * 4 = y := by omega
        rw [e1, e2, e3, hw2, hx2, hy2]
      · rw [if_neg h3] at h; cases h
  | case4 c0 c1 c2 c3 rest h1 ih =>
    unfold decode at h
    rw [if_neg h1] at h
    simp only [Option.bind_eq_bind, Option.bind_eq_some_iff] at h
    obtain ⟨w, hw, x, hx, y, hy, z, hz, l, hl, h⟩ := h
    obtain ⟨hw1, hw2⟩ := symbol_value hw
    obtain ⟨hx1, hx2⟩ := symbol_value hx
    obtain ⟨hy1, hy2⟩ := symbol_value hy
    obtain ⟨hz1, hz2⟩ := symbol_value hz
    cases h
    have e : (BitVec.ofNat 8 (w * 4 + x / 16)).toNat = w * 4 + x / 16 := by
      rw [BitVec.toNat_ofNat, Nat.mod_eq_of_lt (by omega)]
    have e' : (BitVec.ofNat 8 (x % 16 * 16 + y / 4)).toNat = x % 16 * 16 + y / 4 := by
      rw [BitVec.toNat_ofNat, Nat.mod_eq_of_lt (by omega)]
    have e'' : (BitVec.ofNat 8 (y % 4 * 64 + z)).toNat = y % 4 * 64 + z := by
      rw [BitVec.toNat_ofNat, Nat.mod_eq_of_lt (by omega)]
    unfold encode
    rw [e, e', e'', ih l hl]
    have e1 : (w * 4 + x / 16) / 4 = w := by omega
    have e2 : (w * 4 + x / 16) % 4 * 16 + (x % 16 * 16 + y / 4) / 16 = x := by omega
    have e3 : (x % 16 * 16 + y / 4) % 16 * 4 + (y % 4 * 64 + z) / 64 = y := by omega
    have e4 : (y % 4 * 64 + z) % 64 = z := by omega
    rw [e1, e2, e3, e4, hw2, hx2, hy2, hz2]
  | case5 t h1 h2 =>
    unfold decode at h
    split at h
    · exact absurd rfl h1
    · exact absurd rfl (h2 _ _ _ _ _)
    · cases h

/-! ## Against RFC 4648 -/

theorem symbol_eq : ∀ n, n < 64 → symbol n = Spec.Base64.symbol n := by decide +kernel

/-- Bit `7 - i` of a byte as a number. -/
def bit (a : U8) (i : Nat) : Nat := (a.getLsbD (7 - i)).toNat

theorem bit_le (a : U8) (i : Nat) : bit a i ≤ 1 := Bool.toNat_le _

theorem toNat_bits : ∀ a : U8, a.toNat = 128 * bit a 0 + 64 * bit a 1 + 32 * bit a 2 + 16 * bit a 3 + 8 * bit a 4 + 4 * bit a 5 +
    2 * bit a 6 + bit a 7 := by decide +kernel

theorem bits_eq (a : U8) : Spec.Base64.bits a = [a.getLsbD 7, a.getLsbD 6, a.getLsbD 5, a.getLsbD 4, a.getLsbD 3, a.getLsbD 2,
    a.getLsbD 1, a.getLsbD 0] := rfl

theorem ofBits6 (a b c d e f : Bool) : Spec.Base64.ofBits [a, b, c, d, e, f] =
    32 * a.toNat + 16 * b.toNat + 8 * c.toNat + 4 * d.toNat + 2 * e.toNat + f.toNat := by
  unfold Spec.Base64.ofBits
  simp only [List.foldl_cons, List.foldl_nil]
  omega

theorem length_bits (l : List U8) : (l.flatMap Spec.Base64.bits).length = 8 * l.length := by
  induction l with
  | nil => rfl
  | cons a l ih => rw [List.flatMap_cons, List.length_append, ih]; simp [Spec.Base64.bits]; omega

theorem spec_encode3 (a b c : U8) (rest : List U8) : Spec.Base64.encode (a :: b :: c :: rest) =
    Spec.Base64.encode [a, b, c] ++ Spec.Base64.encode rest := by
  have key : (a :: b :: c :: rest).flatMap Spec.Base64.bits = [a, b, c].flatMap Spec.Base64.bits ++
      rest.flatMap Spec.Base64.bits := by simp
  have h24 := length_bits [a, b, c]
  have hr := length_bits rest
  unfold Spec.Base64.encode
  simp only [key, List.length_append, hr]
  simp only [h24]
  have e1 : (8 * [a, b, c].length + 8 * rest.length + 5) / 6 = 4 + (8 * rest.length + 5) / 6 := by simp; omega
  have e2 : (8 * [a, b, c].length + 5) / 6 = 4 := by simp
  rw [e1, e2, List.range_add, List.map_append]
  have e3 : (4 - (4 + (8 * rest.length + 5) / 6) % 4) % 4 = (4 - (8 * rest.length + 5) / 6 % 4) % 4 := by omega
  rw [e3, ← List.append_assoc]
  apply congrArg (· ++ _)
  have e4 : List.replicate ((4 - 4 % 4) % 4) '=' = [] := rfl
  rw [e4, List.append_nil]
  apply congrArg₂
  · apply List.map_congr_left
    intro i hi
    rw [List.mem_range] at hi
    congr 2
    apply List.map_congr_left
    intro j hj
    rw [List.mem_range] at hj
    rw [List.getD_append _ _ _ _ (by rw [h24]; simp; omega)]
  · rw [List.map_map]
    apply List.map_congr_left
    intro i _
    simp only [Function.comp_apply]
    congr 2
    apply List.map_congr_left
    intro j _
    rw [List.getD_append_right _ _ _ _ (by rw [h24]; simp; omega), h24]
    congr 1
    simp
    omega

theorem encode_eq (data : List U8) : encode data = Spec.Base64.encode data := by
  induction data using encode.induct with
  | case1 => rfl
  | case2 a =>
    have ha := toNat_bits a
    have h := bit_le a
    have h0 := h 0; have h1 := h 1; have h2 := h 2; have h3 := h 3; have h4 := h 4; have h5 := h 5; have h6 := h 6; have h7 := h 7
    have e : Spec.Base64.encode [a] =
      [Spec.Base64.symbol (Spec.Base64.ofBits [a.getLsbD 7, a.getLsbD 6, a.getLsbD 5, a.getLsbD 4, a.getLsbD 3, a.getLsbD 2]),
       Spec.Base64.symbol (Spec.Base64.ofBits [a.getLsbD 1, a.getLsbD 0, false, false, false, false]), '=', '='] := by
      simp [Spec.Base64.encode, bits_eq, List.range_succ]
    unfold encode
    rw [e, symbol_eq _ (by omega), symbol_eq _ (by omega), ofBits6, ofBits6]
    unfold bit at *
    simp only [Nat.sub_zero, Nat.reduceSub, Bool.toNat_false] at *
    have q0 : a.toNat / 4 = 32 * (a.getLsbD 7).toNat + 16 * (a.getLsbD 6).toNat + 8 * (a.getLsbD 5).toNat + 4 * (a.getLsbD 4).toNat + 2 * (a.getLsbD 3).toNat + (a.getLsbD 2).toNat := by omega
    have q1 : a.toNat % 4 * 16 = 32 * (a.getLsbD 1).toNat + 16 * (a.getLsbD 0).toNat + 8 * 0 + 4 * 0 + 2 * 0 + 0 := by omega
    rw [q0, q1]
  | case3 a b =>
    have ha := toNat_bits a
    have h := bit_le a
    have h0 := h 0; have h1 := h 1; have h2 := h 2; have h3 := h 3; have h4 := h 4; have h5 := h 5; have h6 := h 6; have h7 := h 7
    have hb := toNat_bits b
    have g := bit_le b
    have g0 := g 0; have g1 := g 1; have g2 := g 2; have g3 := g 3; have g4 := g 4; have g5 := g 5; have g6 := g 6; have g7 := g 7
    have e : Spec.Base64.encode [a, b] =
      [Spec.Base64.symbol (Spec.Base64.ofBits [a.getLsbD 7, a.getLsbD 6, a.getLsbD 5, a.getLsbD 4, a.getLsbD 3, a.getLsbD 2]),
       Spec.Base64.symbol (Spec.Base64.ofBits [a.getLsbD 1, a.getLsbD 0, b.getLsbD 7, b.getLsbD 6, b.getLsbD 5, b.getLsbD 4]),
       Spec.Base64.symbol (Spec.Base64.ofBits [b.getLsbD 3, b.getLsbD 2, b.getLsbD 1, b.getLsbD 0, false, false]), '='] := by
      simp [Spec.Base64.encode, bits_eq, List.range_succ]
    unfold encode
    rw [e, symbol_eq _ (by omega), symbol_eq _ (by omega), symbol_eq _ (by omega), ofBits6, ofBits6, ofBits6]
    unfold bit at *
    simp only [Nat.sub_zero, Nat.reduceSub, Bool.toNat_false] at *
    have q0 : a.toNat / 4 = 32 * (a.getLsbD 7).toNat + 16 * (a.getLsbD 6).toNat + 8 * (a.getLsbD 5).toNat + 4 * (a.getLsbD 4).toNat + 2 * (a.getLsbD 3).toNat + (a.getLsbD 2).toNat := by omega
    have q1 : a.toNat % 4 * 16 + b.toNat / 16 = 32 * (a.getLsbD 1).toNat + 16 * (a.getLsbD 0).toNat + 8 * (b.getLsbD 7).toNat + 4 * (b.getLsbD 6).toNat + 2 * (b.getLsbD 5).toNat + (b.getLsbD 4).toNat := by omega
    have q2 : b.toNat % 16 * 4 = 32 * (b.getLsbD 3).toNat + 16 * (b.getLsbD 2).toNat + 8 * (b.getLsbD 1).toNat + 4 * (b.getLsbD 0).toNat + 2 * 0 + 0 := by omega
    rw [q0, q1, q2]
  | case4 a b c rest ih =>
    have ha := toNat_bits a
    have h := bit_le a
    have h0 := h 0; have h1 := h 1; have h2 := h 2; have h3 := h 3; have h4 := h 4; have h5 := h 5; have h6 := h 6; have h7 := h 7
    have hb := toNat_bits b
    have g := bit_le b
    have g0 := g 0; have g1 := g 1; have g2 := g 2; have g3 := g 3; have g4 := g 4; have g5 := g 5; have g6 := g 6; have g7 := g 7
    have hc := toNat_bits c
    have f := bit_le c
    have f0 := f 0; have f1 := f 1; have f2 := f 2; have f3 := f 3; have f4 := f 4; have f5 := f 5; have f6 := f 6; have f7 := f 7
    have e : Spec.Base64.encode [a, b, c] =
      [Spec.Base64.symbol (Spec.Base64.ofBits [a.getLsbD 7, a.getLsbD 6, a.getLsbD 5, a.getLsbD 4, a.getLsbD 3, a.getLsbD 2]),
       Spec.Base64.symbol (Spec.Base64.ofBits [a.getLsbD 1, a.getLsbD 0, b.getLsbD 7, b.getLsbD 6, b.getLsbD 5, b.getLsbD 4]),
       Spec.Base64.symbol (Spec.Base64.ofBits [b.getLsbD 3, b.getLsbD 2, b.getLsbD 1, b.getLsbD 0, c.getLsbD 7, c.getLsbD 6]),
       Spec.Base64.symbol (Spec.Base64.ofBits [c.getLsbD 5, c.getLsbD 4, c.getLsbD 3, c.getLsbD 2, c.getLsbD 1, c.getLsbD 0])] := by
      simp [Spec.Base64.encode, bits_eq, List.range_succ]
    unfold encode
    rw [spec_encode3, ih, e, symbol_eq _ (by omega), symbol_eq _ (by omega), symbol_eq _ (by omega), symbol_eq _ (by omega),
      ofBits6, ofBits6, ofBits6, ofBits6]
    unfold bit at *
    simp only [Nat.sub_zero, Nat.reduceSub, Bool.toNat_false] at *
    have q0 : a.toNat / 4 = 32 * (a.getLsbD 7).toNat + 16 * (a.getLsbD 6).toNat + 8 * (a.getLsbD 5).toNat + 4 * (a.getLsbD 4).toNat + 2 * (a.getLsbD 3).toNat + (a.getLsbD 2).toNat := by omega
    have q1 : a.toNat % 4 * 16 + b.toNat / 16 = 32 * (a.getLsbD 1).toNat + 16 * (a.getLsbD 0).toNat + 8 * (b.getLsbD 7).toNat + 4 * (b.getLsbD 6).toNat + 2 * (b.getLsbD 5).toNat + (b.getLsbD 4).toNat := by omega
    have q2 : b.toNat % 16 * 4 + c.toNat / 64 = 32 * (b.getLsbD 3).toNat + 16 * (b.getLsbD 2).toNat + 8 * (b.getLsbD 1).toNat + 4 * (b.getLsbD 0).toNat + 2 * (c.getLsbD 7).toNat + (c.getLsbD 6).toNat := by omega
    have q3 : c.toNat % 64 = 32 * (c.getLsbD 5).toNat + 16 * (c.getLsbD 4).toNat + 8 * (c.getLsbD 3).toNat + 4 * (c.getLsbD 2).toNat + 2 * (c.getLsbD 1).toNat + (c.getLsbD 0).toNat := by omega
    rw [q0, q1, q2, q3]
    rfl

end Verif.Model.Base64
