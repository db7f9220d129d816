import Verif.Spec.Rc4

/-! # RC4 keys whose first bytes are public

(Fluhrer, Mantin, Shamir: Weaknesses in the key scheduling algorithm of RC4, 2001, §7.) Somebody knows the first bytes of
the key, as in protocols that put a public initialisation vector in front of a secret. -/

namespace Verif.Spec.Fms
open Verif Verif.Spec.Rc4

/-- Table and `j` of the key scheduling when all known bytes have been used. It can be calculated from them. -/
def known (front : List Nat) : (Nat → Nat) × Nat := ksa front front.length

/-- The known bytes lead to a table that will betray the next one: `S[1]` and `S[S[1]]` are in places that the scheduling
has passed, and point to the place it comes to next. -/
def Resolved (front : List Nat) : Prop :=
  front.length < 256 ∧ (known front).1 1 < front.length ∧ 1 < front.length ∧
    ((known front).1 1 + (known front).1 ((known front).1 1)) % 256 = front.length

instance (front : List Nat) : Decidable (Resolved front) := by unfold Resolved; infer_instance

/-- The next byte of the key, calculated from the known ones and the first byte of the key stream. -/
def guess (front : List Nat) (z : Nat) : Nat :=
  (((List.range 256).map (known front).1).idxOf z + 512 - (known front).2 - (known front).1 front.length) % 256

/-- The rest of the scheduling leaves alone the three places that matter (about 1 key in 20 is such). -/
def Undisturbed (front key : List Nat) : Prop := ∀ n, n < 256 → front.length ≤ n →
  (ksa key (n + 1)).2 ≠ 1 ∧ (ksa key (n + 1)).2 ≠ (known front).1 1 ∧
    (front.length < n → (ksa key (n + 1)).2 ≠ front.length)

instance (front key : List Nat) : Decidable (Undisturbed front key) := by unfold Undisturbed; infer_instance

end Verif.Spec.Fms
