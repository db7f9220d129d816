import Verif.Spec.Block

/-! # The modes of NIST SP 800-38A with feedback or a counter, as modes a user of the crate would write

They use the forward cipher only, also for decryption. -/

namespace Verif.Spec
open Verif

/-- Cipher feedback with whole blocks (§6.3, s = b). The state is the previous ciphertext block. -/
def cfb (N : Nat) : Model.Mode N (Vector U8 N) where
  encryptBlock c prev b := (c.encrypt prev).map fun k => (xorBlock b k, xorBlock b k)
  decryptBlock c prev b := (c.encrypt prev).map fun k => (xorBlock b k, b)

/-- Output feedback (§6.4). The state is the previous output of the cipher. -/
def ofb (N : Nat) : Model.Mode N (Vector U8 N) where
  encryptBlock c prev b := (c.encrypt prev).map fun k => (xorBlock b k, k)
  decryptBlock c prev b := (c.encrypt prev).map fun k => (xorBlock b k, k)

/-- The number that a block denotes, most significant byte first. -/
def blockNat {N : Nat} (b : Vector U8 N) : Nat := beVal b.toList
/-- The block that denotes a number modulo `2 ^ (8 N)`. -/
def natBlock (N n : Nat) : Vector U8 N := Vector.ofFn fun i => (natToBE N n).getD i.val 0

/-- The counter mode (§6.5) with the standard incrementing function of appendix B.1 on the whole block. The state is the
counter. -/
def ctr (N : Nat) : Model.Mode N (Vector U8 N) where
  encryptBlock c counter b := (c.encrypt counter).map fun k => (xorBlock b k, natBlock N (blockNat counter + 1))
  decryptBlock c counter b := (c.encrypt counter).map fun k => (xorBlock b k, natBlock N (blockNat counter + 1))

end Verif.Spec
