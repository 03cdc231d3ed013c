import Verif.Np
import Mathlib.Analysis.SpecialFunctions.Log.Base

/-!
# Model of the logarithm handling of the estimator base class

Floating point numbers are idealised as real numbers.  A computation whose IEEE result is
`inf` or `nan` is represented by `Exc.nonFinite` (this is *not* a Python exception; it marks
that the result leaves the real-number model, and it is absorbing, as `nan` is).
-/

namespace Verif

/-- The `base` argument (`LogBaseType`, `infomeasure/utils/types.py`): the string `"e"` or a number. -/
inductive Base
  | e
  | num (b : ℝ)

/-- `numpy.log`: finite exactly on positive arguments. -/
noncomputable def npLog (x : ℝ) : Except Exc ℝ :=
  if 0 < x then .ok (Real.log x) else .error .nonFinite

open Classical in
/-- `Estimator._log_base(x)`, `infomeasure/estimators/base.py:200-237`, for one number `x`
(NumPy applies it element-wise).  `log2`, `log10` are the base-2 and base-10 logarithms.
Base 1 divides by `log(1) = 0`, which is `inf` or `nan`. -/
noncomputable def logBase (base : Base) (x : ℝ) : Except Exc ℝ :=
  match base with
  | .num b =>
    if b = 2 then (npLog x).map (fun l => l / Real.log 2)
    else if b = 10 then (npLog x).map (fun l => l / Real.log 10)
    else if b = 0 then .ok 0
    else if b < 0 then .error .valueError
    else if b = 1 then .error .nonFinite
    else (npLog x).map (fun l => l / Real.log b)
  | .e => npLog x

open Classical in
/-- The recurring idiom `if base != "e": v /= log(base)`
(e.g. `infomeasure/estimators/entropy/zhang.py:108-110`,
`infomeasure/estimators/utils/discrete_interaction_information.py:616-617`).
`log(0) = -inf`, so base 0 gives (minus) zero; `log` of a negative base is `nan` and
`log(1) = 0` makes the quotient not finite. -/
noncomputable def scaleBase (base : Base) (v : ℝ) : Except Exc ℝ :=
  match base with
  | .e => .ok v
  | .num b =>
    if b = 0 then .ok 0
    else if 0 < b ∧ b ≠ 1 then .ok (v / Real.log b)
    else .error .nonFinite

/-- bases for which logarithms are finite: `"e"` or a positive number other than one -/
def Base.Valid : Base → Prop
  | .e => True
  | .num b => 0 < b ∧ b ≠ 1

/-- ordinary bases: `"e"` or a number larger than one -/
def Base.Std : Base → Prop
  | .e => True
  | .num b => 1 < b

/-- natural logarithm of the base (1 for `"e"`): the size of one information unit in nats -/
noncomputable def Base.ln : Base → ℝ
  | .e => 1
  | .num b => Real.log b

end Verif
