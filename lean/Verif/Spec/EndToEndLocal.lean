import Verif.Props.EndToEnd4

/-!
# Specification: what `im.estimator(…, measure=…)` is asked for
-/

namespace Verif

open Spec

/-- the measure name, the number of series and the presence of a condition ask for measure `k` -/
def Asks (L : PyLower) (m : String) (data : List PyData) (c : Option PyData) : Kind → Prop
  | .h => (measureComp L m ∈ measureNames .h ∧ c = none ∧ (data.length = 1 ∨ data.length = 2)) ∨
      (measureComp L m ∈ crossNames ∧ c = none ∧ data.length = 2)
  | .mi => measureComp L m ∈ measureNames .mi ∧ c = none ∧ 2 ≤ data.length
  | .cmi => (measureComp L m ∈ measureNames .mi ∨ measureComp L m ∈ measureNames .cmi) ∧ c.isSome = true ∧ 2 ≤ data.length
  | .te => measureComp L m ∈ measureNames .te ∧ c = none ∧ data.length = 2
  | .cte => (measureComp L m ∈ measureNames .te ∨ measureComp L m ∈ measureNames .cte) ∧ c.isSome = true ∧ data.length = 2

end Verif
