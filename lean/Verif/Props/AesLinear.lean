import Verif.Spec.Linear
import Verif.Proof.Aes
import Verif.Props.Aes

/-! # C142: linear approximations of the S-box of AES -/

namespace Verif.Props
open Verif Verif.Model
open _root_.Verif.Spec.Linear (parity agreements)

/-- Bits in fields of nine bits each. -/
def spread : List Bool → Nat
  | [] => 0
  | b :: l => b.toNat + 512 * spread l

theorem xor_field (a b : Bool) (s t : Nat) : (a.toNat + 512 * s) ^^^ (b.toNat + 512 * t) = (a ^^ b).toNat + 512 * (s ^^^ t) := by
  have h : ∀ (c : Bool) (u : Nat), c.toNat + 512 * u = 2 ^ 9 * u + c.toNat := fun c u => by omega
  have hc : ∀ c : Bool, c.toNat < 2 ^ 9 := by decide
  rw [h, h, h]
  apply Nat.eq_of_testBit_eq
  intro i
  rw [Nat.testBit_xor, Nat.testBit_two_pow_mul_add _ (hc _), Nat.testBit_two_pow_mul_add _ (hc _),
    Nat.testBit_two_pow_mul_add _ (hc _)]
  split
  · cases a <;> cases b <;> simp
  · rw [Nat.testBit_xor]

theorem spread_xor {α : Type} (l : List α) (f g : α → Bool) :
    spread (l.map fun x => f x ^^ g x) = spread (l.map f) ^^^ spread (l.map g) := by
  induction l with
  | nil => simp [spread]
  | cons x l ih => simp only [List.map_cons, spread]; rw [xor_field, ih]

theorem spread_false {α : Type} (l : List α) : spread (l.map fun _ => false) = 0 := by
  induction l with
  | nil => rfl
  | cons x l ih => simp only [List.map_cons, spread]; rw [ih]; rfl

theorem spread_mod {α : Type} (l : List α) (f : α → Bool) : spread (l.map f) % 511 = l.countP f % 511 := by
  induction l with
  | nil => rfl
  | cons x l ih =>
    simp only [List.map_cons, spread, List.countP_cons]
    have : (if f x = true then 1 else 0) = (f x).toNat := by cases f x <;> rfl
    rw [this]
    omega

theorem spread_and {α : Type} (l : List α) (c : Bool) (f : α → Bool) :
    spread (l.map fun x => c && f x) = bif c then spread (l.map f) else 0 := by
  cases c
  · simpa using spread_false l
  · simp

/-- All bytes. -/
def bytes256 : List U8 := (List.range 256).map (BitVec.ofNat 8)

/-- The bits `i` of all values of `f`. -/
def column (f : U8 → U8) (i : Nat) : Nat := spread (bytes256.map fun x => (f x).getLsbD i)

/-- The sums of the selected bits of all values, from the columns. -/
def selected (cols : Nat → Nat) (mask : U8) : Nat :=
  (List.range 8).foldr (fun i n => (bif mask.getLsbD i then cols i else 0) ^^^ n) 0

theorem selected_eq (f : U8 → U8) (mask : U8) : spread (bytes256.map fun x => parity mask (f x)) = selected (column f) mask := by
  unfold parity selected
  induction List.range 8 with
  | nil => exact spread_false _
  | cons i l ih =>
    simp only [List.foldr_cons]
    rw [spread_xor, ih, spread_and]
    rfl

theorem agreements_eq (f : U8 → U8) (a b : U8) :
    agreements f a b = 256 - (selected (column id) a ^^^ selected (column f) b) % 511 := by
  have h1 := selected_eq id a
  have h2 := selected_eq f b
  rw [← h1, ← h2, ← spread_xor, spread_mod]
  have hlen : bytes256.length = 256 := by unfold bytes256; rw [List.length_map, List.length_range]
  have hc := List.length_eq_countP_add_countP (fun x => parity a x ^^ parity b (f x)) (l := bytes256)
  have hle : bytes256.countP (fun x => parity a x ^^ parity b (f x)) ≤ 256 := hlen ▸ List.countP_le_length
  simp only [id]
  rw [Nat.mod_eq_of_lt (by omega)]
  have hp : (fun x => parity a x == parity b (f x)) = fun x => decide ¬(parity a x ^^ parity b (f x)) = true := by
    funext x
    cases parity a x <;> cases parity b (f x) <;> rfl
  unfold agreements
  rw [show ((List.range 256).map (BitVec.ofNat 8)) = bytes256 from rfl, hp]
  omega

theorem column_table (f : U8 → U8) (t : List U8) (h : bytes256.map f = t) (i : Nat) :
    column f i = spread (t.map fun y => y.getLsbD i) := by
  unfold column
  rw [← h, List.map_map]
  rfl

theorem map_sub : bytes256.map Aes.sub = Aes.fwd := by
  rw [show Aes.sub = fun b : U8 => Aes.fwd.getD b.toNat 0#8 from funext Aes.sub_eq]
  decide +kernel

theorem map_unsub : bytes256.map Aes.unsub = Aes.bwd := by
  rw [show Aes.unsub = fun b : U8 => Aes.bwd.getD b.toNat 0#8 from funext Aes.unsub_eq]
  decide +kernel

/-- The mask of the output runs through all values except zero, that of the input through all values. -/
def linearCheck (t : List U8) : Bool :=
  let xs := bytes256.map (selected fun i => spread (bytes256.map fun y => y.getLsbD i))
  let ss := bytes256.map (selected fun i => spread (t.map fun y => y.getLsbD i))
  ss.tail.all fun s => xs.all fun x =>
    let n := (x ^^^ s) % 511
    Nat.ble 112 n && Nat.ble n 144

theorem linearCheck_fwd : linearCheck Aes.fwd = true := by decide +kernel

theorem linearCheck_bwd : linearCheck Aes.bwd = true := by decide +kernel

theorem mem_bytes256 (a : U8) : a ∈ bytes256 := by revert a; decide +kernel
theorem mem_bytes256_tail (a : U8) (ha : a ≠ 0#8) : a ∈ bytes256.tail := by revert a; decide +kernel

theorem agreements_of_check (f : U8 → U8) (t : List U8) (h : bytes256.map f = t) (hc : linearCheck t = true) (a b : U8)
    (hb : b ≠ 0#8) : 112 ≤ agreements f a b ∧ agreements f a b ≤ 144 := by
  have e1 : column id = fun i => spread (bytes256.map fun y => y.getLsbD i) :=
    funext (column_table id bytes256 (List.map_id _))
  have e2 : column f = fun i => spread (t.map fun y => y.getLsbD i) := funext (column_table f t h)
  rw [agreements_eq, e1, e2]
  unfold linearCheck at hc
  simp only [← List.map_tail, List.all_map, List.all_eq_true, Function.comp_apply, Bool.and_eq_true, Nat.ble_eq] at hc
  have := hc b (mem_bytes256_tail b hb) a (mem_bytes256 a)
  omega

/-! ## C142 -/

/-- C142: no sum of output bits of the S-box, whichever bits are selected, agrees with a sum of input bits, or with a constant,
for fewer than 112 or more than 144 of the 256 inputs. -/
theorem C142_sbox (maskIn maskOut : U8) (h : maskOut ≠ 0#8) :
    112 ≤ agreements Aes.sub maskIn maskOut ∧ agreements Aes.sub maskIn maskOut ≤ 144 :=
  agreements_of_check _ _ map_sub linearCheck_fwd _ _ h

/-- C142: the same holds for the inverse table. -/
theorem C142_inverse (maskIn maskOut : U8) (h : maskOut ≠ 0#8) :
    112 ≤ agreements Aes.unsub maskIn maskOut ∧ agreements Aes.unsub maskIn maskOut ≤ 144 :=
  agreements_of_check _ _ map_unsub linearCheck_bwd _ _ h

/-- C142: both bounds are reached. -/
theorem C142_tight : (∃ a b, b ≠ 0#8 ∧ agreements Aes.sub a b = 112) ∧ ∃ a b, b ≠ 0#8 ∧ agreements Aes.sub a b = 144 := by
  simp only [agreements_eq, show column id = fun i => spread (bytes256.map fun y => y.getLsbD i) from
    funext (column_table id bytes256 (List.map_id _)), show column Aes.sub = fun i => spread (Aes.fwd.map fun y => y.getLsbD i) from
    funext (column_table _ _ map_sub)]
  exact ⟨by decide +kernel, by decide +kernel⟩

/-- C142: sums of output bits alone are balanced: each is 0 for exactly half of the inputs. -/
theorem C142_balanced (maskOut : U8) (h : maskOut ≠ 0#8) :
    agreements Aes.sub 0#8 maskOut = 128 ∧ agreements Aes.unsub 0#8 maskOut = 128 := by
  simp only [agreements_eq, show column id = fun i => spread (bytes256.map fun y => y.getLsbD i) from
    funext (column_table id bytes256 (List.map_id _)), show column Aes.sub = fun i => spread (Aes.fwd.map fun y => y.getLsbD i) from
    funext (column_table _ _ map_sub), show column Aes.unsub = fun i => spread (Aes.bwd.map fun y => y.getLsbD i) from
    funext (column_table _ _ map_unsub)]
  revert maskOut
  decide +kernel

/-- C142: no byte is replaced by itself or by its complement. -/
theorem C142_no_fixed (x : U8) : Aes.sub x ≠ x ∧ Aes.sub x ≠ ~~~x := by
  rw [Aes.sub_eq]
  revert x
  decide +kernel

/-- The lowest bits of input and output of the S-box. -/
example : agreements Aes.sub 1#8 1#8 = 140 ∧ parity 0x0f#8 0x35#8 = false := by
  simp only [agreements_eq, show column id = fun i => spread (bytes256.map fun y => y.getLsbD i) from
    funext (column_table id bytes256 (List.map_id _)), show column Aes.sub = fun i => spread (Aes.fwd.map fun y => y.getLsbD i) from
    funext (column_table _ _ map_sub)]
  decide +kernel

/-- A linear function is agreed with always. -/
example : agreements (fun x => x) 0x35#8 0x35#8 = 256 := by decide +kernel

example : 112 ≤ agreements Aes.sub 0x53#8 0xed#8 := (C142_sbox _ _ (by decide)).1

end Verif.Props
