import Verif.Chars
import Verif.Spec.Oaep

/-! # What a receiver says about an OAEP encoding -/

namespace Verif.Spec.Oaep
open Verif

/-- The masking of EME-OAEP (RFC 8017, 7.1.1, steps 2e-2i) for any data block. -/
def mask {N : Nat} (h : List U8 → Vector U8 N) (seed db : List U8) : List U8 :=
  let maskedDB := xor db (mgf1 h seed db.length)
  let maskedSeed := xor seed (mgf1 h maskedDB N)
  0#8 :: maskedSeed ++ maskedDB

/-- What is said about a data block: the message in it, or what is wrong. -/
inductive Verdict (labelHash : List U8) : List U8 → Except (List Char) (List U8) → Prop
  | message (zeros : Nat) (m : List U8) : Verdict labelHash (labelHash ++ List.replicate zeros 0#8 ++ 1#8 :: m) (.ok m)
  | wrongLabel (db : List U8) : ¬ labelHash <+: db → Verdict labelHash db (.error chars!"wrong label")
  | missing (zeros : Nat) :
      Verdict labelHash (labelHash ++ List.replicate zeros 0#8) (.error chars!"missing 1-byte before message")
  | notOne (zeros : Nat) (b : U8) (m : List U8) : b ≠ 0#8 → b ≠ 1#8 →
      Verdict labelHash (labelHash ++ List.replicate zeros 0#8 ++ b :: m) (.error chars!"separator is not a 1-byte")

end Verif.Spec.Oaep
