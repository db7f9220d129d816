import Verif.Model.Aes

/-! # AES with a record of the table lookups

The S-box is a table in memory that is read at secret places. The functions of `Model.Aes` are repeated here with a list
of these places. -/

namespace Verif.Model.AesTrace
open Verif Verif.Model.Aes

/-- The state with the places of the table that were read so far (src/aes/cipher.rs:7 and 36 or 42). -/
abbrev Traced := State × List U8

/-- `Substitute::forward`, src/aes/cipher.rs:34-38, reads `SBOX.forward` at the bytes of the state, one after the other. -/
def substituteT (s : Traced) : Traced := (substitute s.1, s.2 ++ s.1.toList)

/-- `Substitute::backward`, src/aes/cipher.rs:40-44, likewise with `SBOX.backward`. -/
def unsubstituteT (s : Traced) : Traced := (unsubstitute s.1, s.2 ++ s.1.toList)

/-- A step that reads no table; for those of src/aes/cipher.rs:16-29 and 46-92. -/
def quiet (f : State → State) (s : Traced) : Traced := (f s.1, s.2)

/-- One iteration of the round loop of `encrypt`, src/aes/cipher.rs:165-170. -/
def encRoundT (c : Aes) (s : Traced) (k : Nat) : R Traced := do
  let s := quiet mixColumns (quiet shiftRows (substituteT s))
  .ok (quiet (addKey (← idx c.keys k)) s)

/-- `<Aes as BlockCipher<16>>::encrypt`, src/aes/cipher.rs:160-178. -/
def encryptT (c : Aes) (plaintext : Vector U8 16) : R Traced := do
  let s : Traced := (addKey (← idx c.keys 0) plaintext, [])
  let s ← (List.range' 1 (c.rounds - 1)).foldlM (encRoundT c) s
  let s := quiet shiftRows (substituteT s)
  .ok (quiet (addKey (← idx c.keys c.rounds)) s)

/-- One iteration of the round loop of `decrypt`, src/aes/cipher.rs:188-193. -/
def decRoundT (c : Aes) (s : Traced) (k : Nat) : R Traced := do
  let s := quiet (addKey (← idx c.keys k)) s
  .ok (unsubstituteT (quiet unshiftRows (quiet unmixColumns s)))

/-- `<Aes as BlockCipher<16>>::decrypt`, src/aes/cipher.rs:180-198. -/
def decryptT (c : Aes) (ciphertext : Vector U8 16) : R Traced := do
  let s : Traced := (addKey (← idx c.keys c.rounds) ciphertext, [])
  let s := unsubstituteT (quiet unshiftRows s)
  let s ← (List.range' 1 (c.rounds - 1)).reverse.foldlM (decRoundT c) s
  .ok (quiet (addKey (← idx c.keys 0)) s)

end Verif.Model.AesTrace
