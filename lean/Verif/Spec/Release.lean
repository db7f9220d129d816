import Verif.Basic

/-! # Comparing the two build profiles -/

namespace Verif.Spec.Release
open Verif

/-- A call compiled without overflow checks does what the same call compiled with them does, unless that one panics because
of an overflow: it returns the same value, or panics for the same reason. -/
def Agree {α : Type} (checked unchecked : R α) : Prop := checked = .error .overflow ∨ checked = unchecked

/-- The outcome `r`, except that a panic because of an overflow becomes a panic of the kind `e`. -/
def overflowBecomes {α : Type} (e : Panic) (r : R α) : R α :=
  match r with
  | .error .overflow => .error e
  | r => r

/-- No vector has a capacity above `isize::MAX`. -/
def CapReal (cap : Nat → Nat) : Prop := ∀ n, cap n < 2 ^ 63

end Verif.Spec.Release
