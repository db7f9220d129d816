import Verif.Proof.PemErrors
import Verif.Props.Pem

/-! # C97: which PEM texts are rejected, and why -/

namespace Verif.Props
open Verif Verif.Model.Pem
open _root_.Verif.Spec.Pem (Plain trimmedLines beginLine endLine marks BadMarks)

/-- C97: reading a text fails with a given error exactly if its BEGIN and END lines are wrong in the corresponding way, or
they are right and the lines between are not base64 text of anything. -/
theorem C97_error_iff (s : List Char) (e : Error) : decodePem s = .error e ↔
    BadMarks (marks (trimmedLines s)) e ∨ e = .base64 ∧ ∃ label pre body post,
      trimmedLines s = pre ++ [beginLine label] ++ body ++ [endLine label] ++ post ∧
      Plain pre ∧ Plain body ∧ Plain post ∧ ∀ data, body.flatten ≠ Spec.Base64.encode data := by
  have key : ∀ t : List Char, Model.Base64.decode t = none ↔ ∀ data, t ≠ Spec.Base64.encode data := by
    intro t
    constructor
    · intro h data he
      rw [(C68_decode_iff t data).2 he] at h
      cases h
    · intro h
      rcases hd : Model.Base64.decode t with _ | data
      · rfl
      · exact absurd ((C68_decode_iff t data).1 hd) (h data)
  rw [decodePem_error_iff]
  simp only [beginLine_eq, endLine_eq, plain_iff, key]

/-- C97: what is wrong with the marks is determined, and does not depend on the other lines. -/
theorem C97_marks_decide (s s' : List Char) (e : Error) (h : marks (trimmedLines s) = marks (trimmedLines s'))
    (he : e ≠ .base64) : decodePem s = .error e ↔ decodePem s' = .error e := by
  rw [C97_error_iff, C97_error_iff, h]
  simp [he]

/-- Not vacuous: an END line for another label, with other text around. -/
example : BadMarks (marks (trimmedLines "x\n-----BEGIN A-----\nAQ==\n -----END B-----\ny".toList)) .labelMismatch := by
  have : marks (trimmedLines "x\n-----BEGIN A-----\nAQ==\n -----END B-----\ny".toList) =
      [beginLine ['A'], endLine ['B']] := by decide +kernel
  rw [this]
  exact .labelMismatch _ _ (by decide)
example : decodePem "x\n-----BEGIN A-----\nAQ==\n -----END B-----\ny".toList = .error .labelMismatch := by decide +kernel
/-- The first wrong line counts: the BEGIN line without dashes at its end, not the missing END line. -/
example : decodePem "-----BEGIN A\nAQ==\n".toList = .error .invalidBegin ∧
    decodePem "-----BEGIN A-----\nAQ==\n-----END A".toList = .error .invalidEnd ∧
    decodePem "-----BEGIN A-----\n-----END B-----\n-----BEGIN C-----".toList = .error .multipleBegin := by decide +kernel

end Verif.Props
