/-! # Finding a product from a table of ciphertexts (D. Boneh, A. Joux, P. Nguyen)

Written without reference to the code. -/

namespace Verif.Spec.Split

/-- All pairs of positions of a table. -/
def positions (table : List Nat) : List (Nat × Nat) :=
  (List.range table.length).flatMap fun i => (List.range table.length).map fun j => (i, j)

/-- The table holds the ciphertexts of 1, 2, 3, …; look for two whose product is `c` modulo `n`, and answer with the product
of the numbers they belong to. Nothing is encrypted here. -/
def search (n : Nat) (table : List Nat) (c : Nat) : Option Nat :=
  ((positions table).find? fun ij => table.getD ij.1 0 * table.getD ij.2 0 % n == c % n).map fun ij => (ij.1 + 1) * (ij.2 + 1)

end Verif.Spec.Split
