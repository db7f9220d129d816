import Verif.Model.Big
import Mathlib.Data.Nat.Digits.Defs
import Mathlib.Data.Nat.Size

/-! # What a `BigUint` stands for -/

namespace Verif.Spec.Big
open Verif Verif.Model.Big

/-- The number that a `BigUint` stands for: its bytes are base-256 digits, the least significant first. -/
def val (x : BigUint) : Nat := leVal x.bytes

/-- The normalised `BigUint` of a number: its base-256 digits (`Nat.digits` has no superfluous zero). -/
def big (n : Nat) : BigUint := ⟨(Nat.digits 256 n).map (BitVec.ofNat 8)⟩

/-- No superfluous high zero byte. -/
def Normalised (x : BigUint) : Prop := x.bytes.getLast? ≠ some 0#8

instance (x : BigUint) : Decidable (Normalised x) := by unfold Normalised; infer_instance

/-- What is assumed about `Vec::with_capacity(n).capacity()`: at least `n` (as documented), and not absurdly more (below
2^29 - 1 bytes when at most 2^28 + 1 are asked for). -/
def CapOk (cap : Nat → Nat) : Prop := ∀ n, n ≤ 2 ^ 28 + 1 → n ≤ cap n ∧ cap n + 1 < 2 ^ 29

end Verif.Spec.Big
