import Verif.Model.Text
import Verif.Model.Rsa

/-! # Model of the derived `Debug` of numbers, keys and hash values

What `{:?}` prints. (`{:#?}` prints the same words on several lines and is not modelled.) -/

namespace Verif.Model.Debug
open Verif Verif.Model.Text
open Verif.Model.Big (BigUint)
open Verif.Model.Rsa (PrivateKey PublicKey)

/-- A field of a struct under `#[derive(Debug)]`: `name: value`. Used through src/big/uint.rs:6 and src/rsa/mod.rs:29 and 35. -/
def field (name value : List Char) : List Char := name ++ [':', ' '] ++ value

/-- A struct with named fields under `#[derive(Debug)]`: `Name { fields }`. Used through src/big/uint.rs:6 and src/rsa/mod.rs:29
and 35. -/
def struct (name : List Char) (fields : List (List Char)) : List Char := name ++ [' ', '{', ' '] ++ entries fields ++ [' ', '}']

/-- `#[derive(Debug)]` for `BigUint`, src/big/uint.rs:6-9. -/
def debugBig (x : BigUint) : List Char := struct chars!"BigUint" [field chars!"bytes" (debugBytes x.bytes)]

/-- `#[derive(Debug)]` for `PrivateKey`, src/rsa/mod.rs:29-33. -/
def debugPrivateKey (k : PrivateKey) : List Char :=
  struct chars!"PrivateKey" [field ['n'] (debugBig k.n), field ['d'] (debugBig k.d)]

/-- `#[derive(Debug)]` for `PublicKey`, src/rsa/mod.rs:35-39. -/
def debugPublicKey (k : PublicKey) : List Char :=
  struct chars!"PublicKey" [field ['n'] (debugBig k.n), field ['e'] (debugBig k.e)]

/-- `#[derive(Debug)]` for `HashValue<N>`, src/sha/hash.rs:3-4. -/
def debugHash {N : Nat} (h : Vector U8 N) : List Char := chars!"HashValue(" ++ debugBytes h.toList ++ [')']

end Verif.Model.Debug
