import Verif.Basic

/-! # Linear approximations of a function on bytes -/

namespace Verif.Spec.Linear
open Verif

/-- The sum modulo 2 of the bits of `x` selected by the mask. -/
def parity (mask x : U8) : Bool := (List.range 8).foldr (fun i p => (mask.getLsbD i && x.getLsbD i) ^^ p) false

/-- For how many of the 256 bytes `x` the selected bits of `x` and the selected bits of `f x` have the same sum modulo 2. For
two unrelated bits this would be about 128. -/
def agreements (f : U8 → U8) (maskIn maskOut : U8) : Nat :=
  ((List.range 256).map (BitVec.ofNat 8)).countP fun x => parity maskIn x == parity maskOut (f x)

end Verif.Spec.Linear
