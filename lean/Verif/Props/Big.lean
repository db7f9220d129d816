import Verif.Proof.Big

/-! # C35–C46: BigUint

`Spec.Big.val x` is the number a `BigUint` stands for and `Spec.Big.big n` is the normalised `BigUint` of `n`, so that
"the result is the exact sum, normalised, without panic" is `add x y = .ok (big (val x + val y))`. Every normalised
`BigUint` is `big n` for some `n` (`C35_normalised_iff`). Sizes are bounded in bits: `n.size` is the bit length. -/

namespace Verif.Props
open Verif Verif.Model.Big Verif.Spec.Big

/-- A capacity function that meets `CapOk`: exactly what was asked for. -/
def exactCap (n : Nat) : Nat := n

theorem exactCap_ok : CapOk exactCap := fun n hn => ⟨Nat.le_refl n, by unfold exactCap; omega⟩

/-! ## C35 -/

/-- C35: the normalised `BigUint`s are exactly the `big n`. -/
theorem C35_normalised_iff (x : BigUint) : Normalised x ↔ ∃ n, x = big n :=
  ⟨fun h => ⟨val x, Model.Big.eq_big h⟩, fun ⟨n, h⟩ => h ▸ Model.Big.norm_big n⟩

/-- C35: `big n` stands for `n`, so equal numbers are equal `BigUint`s. -/
theorem C35_val_big (n : Nat) : val (big n) = n := Model.Big.val_big n

/-- C35: `from_be_bytes` reads a big-endian number, whatever zeros it starts with. -/
theorem C35_from_be_bytes (l : List U8) : fromBeBytes l = .ok (big (beVal l)) := Model.Big.fromBeBytes_eq l

/-- C35: `from_le_bytes` reads a little-endian number, whatever zeros it ends with. -/
theorem C35_from_le_bytes (l : List U8) : fromLeBytes l = big (leVal l) := Model.Big.fromLeBytes_eq l

/-- C35: `to_be_bytes` spells the number … -/
theorem C35_to_be_bytes (x : BigUint) : beVal (toBeBytes x) = val x := Model.Big.toBeBytes_val x

/-- … in the shortest way. -/
theorem C35_to_be_bytes_shortest (n : Nat) (l : List U8) (h : beVal l = n) :
    (toBeBytes (big n)).length ≤ l.length := by
  unfold toBeBytes
  rw [List.length_reverse, Model.Big.length_le_iff, ← h]
  unfold beVal
  have := leVal_lt l.reverse
  rwa [List.length_reverse] at this

/-- C35: round trip. -/
theorem C35_roundtrip (n : Nat) : fromBeBytes (toBeBytes (big n)) = .ok (big n) := by
  rw [C35_from_be_bytes, C35_to_be_bytes, C35_val_big]

example : fromBeBytes [0#8, 0#8, 0x12#8, 0x34#8] = .ok (big 0x1234) ∧ toBeBytes (big 0x1234) = [0x12#8, 0x34#8] ∧
    fromLeBytes [0x34#8, 0x12#8, 0#8] = big 0x1234 ∧ fromBeBytes [0#8] = .ok (big 0) := by
  have e : big 0x1234 = ⟨[0x34#8, 0x12#8]⟩ := by simp [big]
  rw [e]; decide

/-! ## C36 -/

/-- C36: every `u128` round-trips. -/
theorem C36_roundtrip (v : U128) : ∃ x, fromU128 v = .ok x ∧ asU128 x = .ok (.ok v) := by
  refine ⟨_, Model.Big.fromU128_eq v, ?_⟩
  rw [Model.Big.asU128_eq, if_pos (Model.Big.length_le_iff.2 (by have := v.isLt; omega)), Model.Big.val_big,
    BitVec.ofNat_toNat, BitVec.setWidth_eq]

/-- C36: `as_u128` succeeds exactly below 2^128. -/
theorem C36_as_u128 (n : Nat) : asU128 (big n) =
    .ok (if n < 2 ^ 128 then .ok (BitVec.ofNat 128 n) else .error ((n.size + 7) / 8)) := by
  rw [Model.Big.asU128_eq, Model.Big.val_big, Model.Big.length_big]
  by_cases h : n < 2 ^ 128
  · have : (big n).bytes.length ≤ 16 := Model.Big.length_le_iff.2 (by omega)
    rw [Model.Big.length_big] at this
    rw [if_pos h, if_pos this]
  · have : ¬ (big n).bytes.length ≤ 16 := fun h' => h (by have := Model.Big.length_le_iff.1 h'; omega)
    rw [Model.Big.length_big] at this
    rw [if_neg h, if_neg this]

example : asU128 ⟨List.replicate 16 0xff#8⟩ = .ok (.ok (BitVec.allOnes 128)) ∧
    asU128 ⟨List.replicate 16 0#8 ++ [1#8]⟩ = .ok (.error 17) := by decide

/-! ## C37 -/

theorem bytes_of_bits {n k : Nat} (h : n.size ≤ 8 * k) : (big n).bytes.length ≤ k := by
  rw [Model.Big.length_big]; omega

/-- C37: `bits_used` is the bit length. -/
theorem C37_bits_used (n : Nat) (h : n.size ≤ 2 ^ 32 - 8) : bitsUsed (big n) = .ok n.size := by
  rw [Model.Big.bitsUsed_norm (Model.Big.norm_big n) (by have := bytes_of_bits (n := n) (k := 2 ^ 29 - 1) (by omega); omega),
    Model.Big.val_big]

/-- C37: `is_set` is the binary digit. -/
theorem C37_is_set (n : Nat) (h : n.size ≤ 2 ^ 32 - 8) (i : Nat) : isSet (big n) i = .ok (n.testBit i) := by
  rw [Model.Big.isSet_norm (Model.Big.norm_big n) (by have := bytes_of_bits (n := n) (k := 2 ^ 29 - 1) (by omega); omega),
    Model.Big.val_big]

example : (0x1234 : Nat).size ≤ 2 ^ 32 - 8 := by rw [Nat.size_le]; exact Nat.lt_of_lt_of_le (by decide : 0x1234 < 2 ^ 13) (Nat.pow_le_pow_right (by decide) (by decide))

example : bitsUsed ⟨[0x34#8, 0x12#8]⟩ = .ok 13 ∧ isSet ⟨[0x34#8, 0x12#8]⟩ 12 = .ok true ∧
    isSet ⟨[0x34#8, 0x12#8]⟩ 13 = .ok false ∧ isSet ⟨[0x34#8, 0x12#8]⟩ 4000000000 = .ok false := by decide

/-! ## C38 -/

/-- C38: inside the stored bytes `update` sets the one digit … -/
theorem C38_update (x : BigUint) (i : Nat) (b : Bool) (hi : i < 8 * x.bytes.length) : ∃ y, update x i b = .ok y ∧
    ∀ j, (val y).testBit j = if j = i then b else (val x).testBit j := by
  obtain ⟨y, h1, -, h2⟩ := Model.Big.update_ok x i b (by omega)
  exact ⟨y, h1, h2⟩

/-- … and outside it panics. -/
theorem C38_update_panics (x : BigUint) (i : Nat) (b : Bool) (hi : 8 * x.bytes.length ≤ i) :
    update x i b = .error .explicit := Model.Big.update_panics x i b (by omega)

example : update ⟨[0x34#8, 0x12#8]⟩ 12 false = .ok ⟨[0x34#8, 0x02#8]⟩ ∧ update ⟨[0x34#8]⟩ 8 true = .error .explicit ∧
    update ⟨[0x34#8]⟩ 0 true = .ok ⟨[0x35#8]⟩ := by decide

/-! ## C39 -/

/-- C39: adding a byte. -/
theorem C39_add_byte (x : BigUint) (b : U8) : addByte x b = .ok (big (val x + b.toNat)) := Model.Big.addByte_eq x b

/-- C39: adding a `BigUint`. -/
theorem C39_add (x y : BigUint) : add x y = .ok (big (val x + val y)) := Model.Big.add_eq x y

example : add ⟨[0xff#8, 0xff#8]⟩ ⟨[1#8]⟩ = .ok ⟨[0#8, 0#8, 1#8]⟩ ∧ add ⟨[1#8]⟩ ⟨[0xff#8, 0xff#8]⟩ = .ok ⟨[0#8, 0#8, 1#8]⟩ ∧
    addByte ⟨[0xff#8, 0xff#8]⟩ 255#8 = .ok ⟨[0xfe#8, 0#8, 1#8]⟩ := by decide

/-! ## C40 -/

/-- C40: comparison is the numeric order. -/
theorem C40_cmp (a b : Nat) (ha : a.size ≤ 2 ^ 32 - 8) (hb : b.size ≤ 2 ^ 32 - 8) :
    cmp (big a) (big b) = .ok (compare a b) := by
  rw [Model.Big.cmp_norm (Model.Big.norm_big a) (Model.Big.norm_big b)
    (by have := bytes_of_bits (n := a) (k := 2 ^ 29 - 1) (by omega); omega)
    (by have := bytes_of_bits (n := b) (k := 2 ^ 29 - 1) (by omega); omega), Model.Big.val_big, Model.Big.val_big]

/-- C40: so is `partial_cmp`. -/
theorem C40_partial_cmp (a b : Nat) (ha : a.size ≤ 2 ^ 32 - 8) (hb : b.size ≤ 2 ^ 32 - 8) :
    partialCmp (big a) (big b) = .ok (some (compare a b)) := by
  unfold partialCmp; rw [C40_cmp a b ha hb]; rfl

example : Model.Big.cmp ⟨[0x34#8, 0x12#8]⟩ ⟨[0x35#8, 0x12#8]⟩ = .ok .lt ∧
    Model.Big.cmp ⟨[0#8, 1#8]⟩ ⟨[0xff#8]⟩ = .ok .gt ∧ Model.Big.cmp ⟨[5#8]⟩ ⟨[5#8]⟩ = .ok .eq := by decide

/-! ## C41, C42 -/

/-- C41: subtraction is exact when the difference is a natural number. -/
theorem C41_sub {cap : Nat → Nat} (hc : CapOk cap) (a b : Nat) (ha : a.size ≤ 2 ^ 31) (h : b ≤ a) :
    subAssign cap (big a) (big b) = .ok (big (a - b)) ∧ sub cap (big a) (big b) = .ok (big (a - b)) := by
  have := Model.Big.subAssign_ge hc (by have := bytes_of_bits (n := a) (k := 2 ^ 28) (by omega); omega) h
  exact ⟨this, this⟩

example : sub exactCap ⟨[10#8, 11#8, 12#8, 13#8]⟩ ⟨[11#8]⟩ = .ok ⟨[255#8, 10#8, 12#8, 13#8]⟩ ∧
    sub exactCap ⟨[0#8, 0#8, 1#8]⟩ ⟨[1#8]⟩ = .ok ⟨[0xff#8, 0xff#8]⟩ ∧ sub exactCap ⟨[7#8]⟩ ⟨[7#8]⟩ = .ok ⟨[]⟩ := by decide

/-- C42 does not hold: 1 - 2 is 1, for every admissible capacity. -/
theorem C42_false_one_minus_two {cap : Nat → Nat} (hc : CapOk cap) : sub cap (big 1) (big 2) = .ok (big 1) := by
  have e1 : (big 1).bytes.length = 1 := by rw [Model.Big.length_big]; decide
  have e2 : (big 2).bytes.length = 1 := by rw [Model.Big.length_big]; decide
  have hcap := (hc (1 + 1) (by omega)).1
  unfold sub
  rw [Model.Big.subAssign_eq rfl hc (by omega), e1, e2, if_pos (by omega)]
  have hs : (1 : Nat).size = 1 := rfl
  obtain ⟨k, hk⟩ : ∃ k, cap (1 + 1) = k + 1 := ⟨cap (1 + 1) - 1, by omega⟩
  rw [hs, hk, Nat.pow_succ]
  congr 2
  have := Nat.pow_pos (n := k) (show 0 < 256 by omega)
  omega

example : sub exactCap ⟨[1#8]⟩ ⟨[2#8]⟩ = .ok ⟨[1#8]⟩ := by decide

/-- C42, what happens instead of a panic: with a subtrahend that fits the capacity the result is the difference modulo
2^(bit length of the minuend); only a longer subtrahend panics. Missing from the property: the panic in the first case. -/
theorem C42_underflow_partial {cap : Nat → Nat} (hc : CapOk cap) (a b : Nat) (ha : a.size ≤ 2 ^ 31) (_h : a < b) :
    ((big b).bytes.length > cap ((big a).bytes.length + 1) → sub cap (big a) (big b) = .error .overflow) ∧
    ((big b).bytes.length ≤ cap ((big a).bytes.length + 1) →
      ∃ r, sub cap (big a) (big b) = .ok (big r) ∧ r < 2 ^ a.size ∧ (r + b) % 2 ^ a.size = a % 2 ^ a.size) := by
  have hl : (big a).bytes.length ≤ 2 ^ 28 := by have := bytes_of_bits (n := a) (k := 2 ^ 28) (by omega); omega
  have key := Model.Big.subAssign_eq (cap := cap) (a := a) (b := b) rfl hc hl
  constructor
  · intro hb; unfold sub; rw [key, if_neg (by omega)]
  · intro hb
    refine ⟨_, by unfold sub; rw [key, if_pos hb], Nat.mod_lt _ (Nat.two_pow_pos _), ?_⟩
    have hs : a.size ≤ 8 * (big a).bytes.length := by have := Model.Big.size_val_le (big a); rwa [Model.Big.val_big] at this
    have hcap := (hc ((big a).bytes.length + 1) (by omega)).1
    obtain ⟨k, hk⟩ : ∃ k, 256 ^ cap ((big a).bytes.length + 1) = 2 ^ a.size * k := by
      rw [Model.Big.pow256]; exact Nat.pow_dvd_pow 2 (by omega)
    have hblt : b < 256 ^ cap ((big a).bytes.length + 1) := Model.Big.length_le_iff.1 hb
    rw [Nat.mod_add_mod, Nat.sub_add_cancel (by omega), hk, Nat.mul_add_mod]

example : sub exactCap ⟨[1#8]⟩ ⟨[0#8, 0#8, 0#8, 1#8]⟩ = .error .overflow ∧
    sub exactCap ⟨[5#8]⟩ ⟨[6#8]⟩ = .ok ⟨[7#8]⟩ := by decide

/-! ## C43 -/

/-- C43: `<<=` multiplies, for every `BigUint` … -/
theorem C43_shl_value_partial (x : BigUint) (k : Nat) : val (shl x k) = val x * 2 ^ k := Model.Big.val_shl x k

/-- … and the result is normalised unless zero is shifted by 8 or more. -/
theorem C43_shl_partial (n k : Nat) (h : n ≠ 0 ∨ k < 8) : shl (big n) k = big (n * 2 ^ k) := by
  rcases h with h | h
  · exact Model.Big.shl_big h k
  · exact Model.Big.shl_big_small n k h

example : shl (big 0x81) 9 = big (0x81 * 2 ^ 9) ∧ shl (big 0) 7 = big (0 * 2 ^ 7) :=
  ⟨C43_shl_partial _ _ (by decide), C43_shl_partial _ _ (by decide)⟩

/-- C43: `>>=` divides, unless whole bytes beyond the stored ones are shifted out. -/
theorem C43_shr_partial (n k : Nat) (h : k < 8 * ((n.size + 7) / 8 + 1)) : shr (big n) k = .ok (big (n / 2 ^ k)) :=
  Model.Big.shr_big n k (by rw [Model.Big.length_big]; omega)

example : shr (big 0x1234) 9 = .ok (big (0x1234 / 2 ^ 9)) ∧ shr (big 0x1234) 23 = .ok (big (0x1234 / 2 ^ 23)) :=
  ⟨C43_shr_partial _ _ (by decide), C43_shr_partial _ _ (by decide)⟩

/-- C43 does not hold: shifting zero by 8 or more gives superfluous zero bytes … -/
theorem C43_false_shl_zero (k : Nat) (hk : 8 ≤ k) : ¬ Normalised (shl (big 0) k) ∧ shl (big 0) k ≠ big 0 := by
  rw [Model.Big.shl_zero]
  obtain ⟨j, hj⟩ : ∃ j, k / 8 = j + 1 := ⟨k / 8 - 1, by omega⟩
  constructor
  · unfold Normalised
    rw [hj, List.replicate_succ']
    simp
  · rw [hj, Model.Big.big_zero]
    intro h
    injection h with h
    simp [List.replicate_succ] at h

/-- … and shifting right by more whole bytes than there are panics instead of giving zero. -/
theorem C43_false_shr_panics (n k : Nat) (h : 8 * ((n.size + 7) / 8 + 1) ≤ k) : shr (big n) k = .error .index :=
  Model.Big.shr_panics n k (by rw [Model.Big.length_big]; omega)

example : shl ⟨[0x81#8]⟩ 9 = ⟨[0#8, 0x02#8, 0x01#8]⟩ ∧ shr ⟨[0#8, 0x02#8, 0x01#8]⟩ 9 = .ok ⟨[0x81#8]⟩ ∧
    shr ⟨[0xff#8]⟩ 15 = .ok ⟨[]⟩ ∧ shr ⟨[0xff#8]⟩ 16 = .error .index ∧ shl ⟨[]⟩ 8 = ⟨[0#8]⟩ := by decide

/-! ## C44, C45 -/

/-- C44: the remainder is exact. -/
theorem C44_rem {cap : Nat → Nat} (hc : CapOk cap) (a b : Nat) (ha : a.size ≤ 2 ^ 31) (hb : b.size ≤ 2 ^ 32 - 8)
    (h : 0 < b) : rem cap (big a) (big b) = .ok (big (a % b)) :=
  Model.Big.rem_eq hc a b h (by have := bytes_of_bits (n := a) (k := 2 ^ 28) (by omega); omega)
    (by have := bytes_of_bits (n := b) (k := 2 ^ 29 - 1) (by omega); omega)

example : rem exactCap ⟨[0x34#8, 0x12#8]⟩ ⟨[100#8]⟩ = .ok ⟨[60#8]⟩ ∧ rem exactCap ⟨[5#8]⟩ ⟨[0#8, 1#8]⟩ = .ok ⟨[5#8]⟩ := by
  decide +kernel

/-- C45 does not hold: 5 %= 0 leaves 5. -/
theorem C45_false_small {cap : Nat → Nat} (hc : CapOk cap) (a : Nat) (h : a < 128) :
    rem cap (big a) (big 0) = .ok (big a) := by
  have hl : (big a).bytes.length ≤ 1 := Model.Big.length_le_iff.2 (by omega)
  rw [Model.Big.rem_zero hc a (by omega), if_pos h]

/-- C45, the part that holds: from 128 on the remainder by zero panics. -/
theorem C45_rem_zero_partial {cap : Nat → Nat} (hc : CapOk cap) (a : Nat) (ha : a.size ≤ 2 ^ 31) (h : 128 ≤ a) :
    rem cap (big a) (big 0) = .error .ilogZero := by
  rw [Model.Big.rem_zero hc a (by have := bytes_of_bits (n := a) (k := 2 ^ 28) (by omega); omega), if_neg (by omega)]

example : rem exactCap ⟨[5#8]⟩ ⟨[]⟩ = .ok ⟨[5#8]⟩ ∧ rem exactCap ⟨[128#8]⟩ ⟨[]⟩ = .error .ilogZero := by decide +kernel

/-! ## C46 -/

/-- The values a program can build with the constructors and operators, `update` excepted. `P x k` says when `x <<= k` is
allowed. -/
inductive Built (cap : Nat → Nat) (P : BigUint → Nat → Prop) : BigUint → Prop
  | be {l x} : fromBeBytes l = .ok x → Built cap P x
  | le {l} : Built cap P (fromLeBytes l)
  | u128 {v x} : fromU128 v = .ok x → Built cap P x
  | addByte {x b z} : Built cap P x → addByte x b = .ok z → Built cap P z
  | add {x y z} : Built cap P x → Built cap P y → add x y = .ok z → Built cap P z
  | sub {x y z} : Built cap P x → Built cap P y → subAssign cap x y = .ok z → Built cap P z
  | rem {x y z} : Built cap P x → Built cap P y → rem cap x y = .ok z → Built cap P z
  | shl {x k} : Built cap P x → P x k → Built cap P (shl x k)
  | shr {x k z} : Built cap P x → shr x k = .ok z → Built cap P z

/-- C46, the part that holds: without shifting zero left by 8 or more everything stays normalised. -/
theorem C46_normalised_partial {cap : Nat → Nat} {x : BigUint}
    (h : Built cap (fun x k => val x ≠ 0 ∨ k < 8) x) : Normalised x := by
  induction h with
  | @be l x h => rw [Model.Big.fromBeBytes_eq] at h; cases h; exact Model.Big.norm_big _
  | le => exact Model.Big.trim_norm _
  | @u128 v x h => rw [Model.Big.fromU128_eq] at h; cases h; exact Model.Big.norm_big _
  | addByte _ h _ => rw [Model.Big.addByte_eq] at h; cases h; exact Model.Big.norm_big _
  | add _ _ h _ _ => rw [Model.Big.add_eq] at h; cases h; exact Model.Big.norm_big _
  | sub _ _ h _ _ => exact Model.Big.subAssign_norm h
  | rem _ _ h ih _ => exact Model.Big.rem_norm ih h
  | shl _ hp ih => exact Model.Big.shl_norm _ _ ih hp
  | shr _ h ih => exact Model.Big.shr_norm ih h

/-- C46: among those values `==` is numeric equality and `bits_used` is the bit length. -/
theorem C46_eq_iff_partial {cap : Nat → Nat} {x y : BigUint} (hx : Built cap (fun x k => val x ≠ 0 ∨ k < 8) x)
    (hy : Built cap (fun x k => val x ≠ 0 ∨ k < 8) y) :
    (x = y ↔ val x = val y) ∧ (x.bytes.length < 2 ^ 29 → bitsUsed x = .ok (val x).size) :=
  ⟨⟨congrArg val, Model.Big.norm_inj (C46_normalised_partial hx) (C46_normalised_partial hy)⟩,
    Model.Big.bitsUsed_norm (C46_normalised_partial hx)⟩

/-- C46 does not hold: `0 <<= 8` equals 0 as a number but not as a `BigUint`, and `bits_used` panics on it. -/
theorem C46_false {cap : Nat → Nat} : ∃ x, Built cap (fun _ _ => True) x ∧ val x = 0 ∧ x ≠ big 0 ∧
    bitsUsed x = .error .ilogZero :=
  ⟨⟨[0#8]⟩, Built.shl (x := ⟨[]⟩) (k := 8) (Built.be (l := []) rfl) trivial, rfl, by simp [Model.Big.big_zero], rfl⟩

/-- A value that meets the hypothesis of the partial theorem: (255 + 1) << 9, then >> 3. -/
example : Normalised ⟨[0#8, 0x40#8]⟩ := C46_normalised_partial (cap := exactCap) <|
  .shr (x := ⟨[0#8, 0#8, 2#8]⟩) (k := 3)
    (.shl (x := ⟨[0#8, 1#8]⟩) (k := 9) (.addByte (x := ⟨[255#8]⟩) (b := 1#8) (.be (l := [255#8]) (by decide)) (by decide))
      (Or.inl (by decide)))
    (by decide)

end Verif.Props
