import Mathlib.Order.Monotone.Basic
import Mathlib.Data.Real.Basic

/-!
# Vocabulary of C97: maps that keep or invert the order
-/

namespace Verif.Spec

/-- `f` keeps the order of all pairs of different numbers or inverts the order of all of them -/
def KeepsOrInverts (f : ℝ → ℝ) : Prop := StrictMono f ∨ StrictAnti f

end Verif.Spec
