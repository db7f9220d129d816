import Verif.Model.Lib

/-! # Encrypting and decrypting with one cipher after the other -/

namespace Verif.Spec.Chained
open Verif Verif.Model

/-- `Chained allowed f`: `f` encrypts or decrypts a block with one cipher, the result with another one, and so on, any number of
times, each time with a cipher that is `allowed`. -/
inductive Chained {N : Nat} (allowed : BlockCipher N → Prop) : (Vector U8 N → R (Vector U8 N)) → Prop
  | nothing : Chained allowed fun b => .ok b
  | encrypt {f c} : Chained allowed f → allowed c → Chained allowed fun b => do c.encrypt (← f b)
  | decrypt {f c} : Chained allowed f → allowed c → Chained allowed fun b => do c.decrypt (← f b)

end Verif.Spec.Chained
