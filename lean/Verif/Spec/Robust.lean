import Mathlib.Data.List.Basic

/-!
# Independent specification: how many observations of a sample were changed
-/

namespace Verif.Spec

variable {α : Type*} [DecidableEq α]

/-- number of positions at which two samples differ -/
def changed (xs ys : List α) : Nat := (List.range xs.length).countP (fun t => decide (xs[t]? ≠ ys[t]?))

end Verif.Spec
