import Verif.Model.Effects

/-! # What an iterator does, and how a call ends -/

namespace Verif.Spec.HashIter
open Verif Verif.Model.Effects

/-- Asked again and again from state `w`, the iterator yields exactly `bytes` and then returns `None` (`.ok ()`) or panics; `w'`
is the state right after that. -/
inductive Yields {W : Type} (next : Eff W (Option U8)) : W → List U8 → R Unit → W → Prop
  | none {w w'} : next.exec w = (.ok none, w') → Yields next w [] (.ok ()) w'
  | panic {w w' e} : next.exec w = (.error e, w') → Yields next w [] (.error e) w'
  | item {w w' w'' b bytes r} : next.exec w = (.ok (some b), w') → Yields next w' bytes r w'' → Yields next w (b :: bytes) r w''

/-- Asked again and again from state `w`, the iterator yields at least `bytes`; `w'` is the state right after the last of them. -/
inductive Gives {W : Type} (next : Eff W (Option U8)) : W → List U8 → W → Prop
  | start {w} : Gives next w [] w
  | item {w w' w'' b bytes} : next.exec w = (.ok (some b), w') → Gives next w' bytes w'' → Gives next w (b :: bytes) w''

/-- The call ends with the result `r` and leaves the state `w'`: so it is with enough steps, however many more are allowed. -/
def Ends {W α : Type} (call : Nat → Eff W α) (w : W) (r : R α) (w' : W) : Prop :=
  ∃ enough, ∀ fuel, enough ≤ fuel → (call fuel).exec w = (r, w')

/-- The call does not end, however many steps are allowed. -/
def NeverEnds {W α : Type} (call : Nat → Eff W α) (w : W) : Prop := ∀ fuel, ((call fuel).exec w).1 = .error .diverged

end Verif.Spec.HashIter
