import Verif.Model.Text
import Verif.Model.Oaep

/-! # How `decrypt_message` ends, with the text of the panic -/

namespace Verif.Model.Ending
open Verif Verif.Model.Big Verif.Model.Rsa Verif.Model.Oaep

/-- How a call of `decrypt_message` ends: it returns a message, `unwrap` fails with the given panic message, or there is
another panic. The function is src/rsa/mod.rs:139-147. -/
inductive Ending
  | returns (message : List U8)
  | unwrapFails (text : List Char)
  | panics (p : Panic)
  deriving DecidableEq, Repr

/-- The panic message of `Result::unwrap` for an `&'static str` without characters that `{:?}` escapes. Used at
src/rsa/mod.rs:146. -/
def unwrapText (error : List Char) : List Char := chars!"called `Result::unwrap()` on an `Err` value: \"" ++ error ++ ['"']

/-- The part of `decrypt_message` before `unwrap`, src/rsa/mod.rs:139-146, for `RsaPadding`. -/
def beforeUnwrap (cap : Nat → Nat) (self : RsaEncryption) (ciphertext : List U8) : R (Except DecodeError (List U8)) := do
  let m := List.replicate ciphertext.length 0#8
  let d ← decrypt cap self (← fromBeBytes ciphertext)
  let dec := toBeBytes d
  let start ← subU m.length dec.length
  let m := m.take start ++ dec
  rsaPadding.decode [] m m.length

/-- `RsaEncryption::decrypt_message`, src/rsa/mod.rs:139-147, for `RsaPadding`, with the text of a failing `unwrap`. -/
def decryptEnding (cap : Nat → Nat) (self : RsaEncryption) (ciphertext : List U8) : Ending :=
  match beforeUnwrap cap self ciphertext with
  | .error p => .panics p
  | .ok (.error e) => .unwrapFails (unwrapText (Text.oaepError e))
  | .ok (.ok m) => .returns m

end Verif.Model.Ending
