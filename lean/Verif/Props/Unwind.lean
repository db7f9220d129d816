import Verif.Proof.Unwind
import Verif.Props.Big

/-! # C147: a panic that is caught leaves a `BigUint` as it was

The operators of `BigUint` borrow it, so that the number outlives a panic in them. `Model.Unwind` performs every write to
the number in the order of the code; a panic keeps the writes made so far. The theorems say that there are none. -/

namespace Verif.Props
open Verif Verif.Spec.Big Verif.Spec.Unwind Verif.Model.Effects
open _root_.Verif.Model.Big (BigUint)

/-- C147: a call that panics leaves exactly the bytes that were there before it; one that returns leaves the value that
the functional model gives. The number may have superfluous zero bytes, and so may the other operand. -/
theorem C147_call {cap : Nat → Nat} (hc : CapOk cap) (c : Call) (hsmall : c.Small) (x : BigUint)
    (hl : x.bytes.length ≤ 2 ^ 28) :
    (∀ y, c.value cap x = .ok y → Eff.exec (c.mutate cap) x = (.ok (), y)) ∧
    (∀ e, c.value cap x = .error e → Eff.exec (c.mutate cap) x = (.error e, x)) := by
  have key : Eff.exec (c.mutate cap) x = Model.Unwind.outcome (c.value cap x) x := by
    cases c with
    | addByte b => exact Model.Unwind.exec_addByte b x
    | add y => exact Model.Unwind.exec_add y x
    | sub y => exact Model.Unwind.exec_subAssign hc x y hl
    | rem y => exact Model.Unwind.exec_rem hc x y hl hsmall
    | shl k => exact Model.Unwind.exec_shl k x
    | shr k => exact Model.Unwind.exec_shr k x
    | update i b => exact Model.Unwind.exec_update i b x
  exact ⟨fun y h => by rw [key, h]; rfl, fun e h => by rw [key, h]; rfl⟩

/-- `5 -= 2^40` (6 bytes; the buffer has 2): a panic, and 5 is still 5. -/
example : Eff.exec ((Call.sub ⟨[0, 0, 0, 0, 0, 1]⟩).mutate exactCap) ⟨[5#8]⟩ = (.error .overflow, ⟨[5#8]⟩) := by
  decide +kernel

/-- `300 %= 0`: a panic, and 300 is still 300. -/
example : Eff.exec ((Call.rem ⟨[]⟩).mutate exactCap) ⟨[44, 1]⟩ = (.error .ilogZero, ⟨[44, 1]⟩) := by decide +kernel

/-- `300 >>= 24`: a panic. Without one: `300 -= 45` and `1000 %= 300`. -/
example : Eff.exec ((Call.shr 24).mutate exactCap) ⟨[44, 1]⟩ = (.error .index, ⟨[44, 1]⟩) ∧
    Eff.exec ((Call.sub ⟨[45]⟩).mutate exactCap) ⟨[44, 1]⟩ = (.ok (), ⟨[255]⟩) ∧
    Eff.exec ((Call.rem ⟨[44, 1]⟩).mutate exactCap) ⟨[0xe8, 3]⟩ = (.ok (), ⟨[100]⟩) := by decide +kernel

/-- A panic between two writes would be seen: what is left of `push(7)` when the next statement panics. -/
example : Eff.exec (do Model.Unwind.push 7#8; throw .explicit : Model.Unwind.Mut Unit) ⟨[5#8]⟩ =
    (.error .explicit, ⟨[5, 7]⟩) := by decide +kernel

/-- C147: so a program that catches every panic goes on with the number it would have without the calls that panic, for
every history of calls. (`hl`: the number stays below 2^28 bytes.) -/
theorem C147_history {cap : Nat → Nat} (hc : CapOk cap) (cs : List Call) (hsmall : ∀ c ∈ cs, c.Small) (x : BigUint)
    (hl : ∀ k, (leftOut cap (cs.take k) x).bytes.length ≤ 2 ^ 28) : caught cap cs x = leftOut cap cs x := by
  induction cs generalizing x with
  | nil => rfl
  | cons c cs ih =>
    have h := C147_call hc c (hsmall c (by simp)) x (hl 0)
    have hl' : ∀ k, (leftOut cap (c :: cs.take k) x).bytes.length ≤ 2 ^ 28 := fun k => hl (k + 1)
    rw [caught, leftOut]
    cases hv : c.value cap x with
    | ok y =>
      rw [h.1 y hv]
      exact ih (fun c hc => hsmall c (by simp [hc])) y fun k => by have := hl' k; rwa [leftOut, hv] at this
    | error e =>
      rw [h.2 e hv]
      exact ih (fun c hc => hsmall c (by simp [hc])) x fun k => by have := hl' k; rwa [leftOut, hv] at this

/-- Six calls, three of which panic: 5, `-= 2^40` panics, `<<= 6` gives 320, `%= 0` panics, `update(20, true)` panics,
`+= 200` gives 520, `%= 7` gives 2. -/
example : caught exactCap [.sub ⟨[0, 0, 0, 0, 0, 1]⟩, .shl 6, .rem ⟨[]⟩, .update 20 true, .addByte 200, .rem ⟨[7]⟩] ⟨[5]⟩ =
    ⟨[2]⟩ ∧
    leftOut exactCap [.shl 6, .addByte 200, .rem ⟨[7]⟩] ⟨[5]⟩ = ⟨[2]⟩ := by decide +kernel

end Verif.Props
