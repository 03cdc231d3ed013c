import Verif.Spec.EndToEnd

/-!
# Specification: calls that differ in the base
-/

namespace Verif

/-- a call is inside the modelled fragment: its result is the same whatever the code outside the model (`World.other`) returns -/
def PubFn.Modelled (fn : PubFn) (W : World) (data : List PyData) (a : PyName) (cond : CondKw PyData) (kw : Kw) : Prop :=
  ∀ other, fn.run { W with other := other } data a cond kw = fn.run W data a cond kw

/-- the keyword arguments with `base=v` -/
def withBase (kw : Kw) (v : PyVal) : Kw := fun k => if k = "base" then some v else kw k

/-- the Python value is the number `x` -/
def IsNumber (v : PyVal) (x : ℝ) : Prop := v = .num x ∨ ∃ n : Int, v = .int n ∧ x = n

end Verif
