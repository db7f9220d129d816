import Verif.Basic

/-! # Doing the same thing again and again -/

namespace Verif.Spec.Cycle
open Verif

/-- `Repeated step k x y`: `k` calls of `step`, the first with `x` and each later one with what the one before returned, all
return, and the last one returns `y` (`x` itself if there are none). -/
inductive Repeated {α : Type} (step : α → R α) : Nat → α → α → Prop
  | none (x) : Repeated step 0 x x
  | more {k x y z} : Repeated step k x y → step y = .ok z → Repeated step (k + 1) x z

end Verif.Spec.Cycle
