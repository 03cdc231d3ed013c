import Verif.Props.EndToEndAsked
import Verif.Props.EndToEndEffectiveEx

/-!
# C84, C87, C88: concrete calls that meet the hypotheses of the theorems on refused calls
-/

namespace Verif

open Spec

section
variable {G : Type} (E : TestEnv G) (g : G)

example := (demo_te_effective E g).imp fun _ hr => C88_asked hr
example := (demo_te_test E g).imp fun _ hr => C87_asked hr
example := (demo_mi_test E g).imp fun _ hr => C87_asked hr

example := (demo_te_value demo.draw).imp fun _ hr => C82_asked (W := demo.withDraw demo.draw) hr

example := demo_box_locals.imp fun _ ⟨_, h, _⟩ => C84_asked h

/-- the Jensen–Shannon divergence is not a measure of the factory -/
example := C88_same_error (W := demo) (E := E) (g := g) (nT := none) (mth := none) (e := .valueError)
  (C46_estimator_unknown_measure demo.lower PyVal.int [PyData.ints [0, 1], .ints [1, 1]] none "jsd" (.str "discrete") (kwList [])
    (by intro k; cases k <;> decide +kernel) (by decide +kernel))

example := C87_same_error (W := demo) (E := E) (g := g) (nT := none) (mth := none) (e := .valueError)
  (C46_estimator_unknown_measure demo.lower PyVal.int [PyData.ints [0, 1], .ints [1, 1]] none "jsd" (.str "discrete") (kwList [])
    (by intro k; cases k <;> decide +kernel) (by decide +kernel))

example := C84_same_error (W := demo) (e := .valueError)
  (C46_estimator_unknown_measure demo.lower PyVal.int [PyData.ints [0, 1], .ints [1, 1]] none "jsd" (.str "discrete") (kwList [])
    (by intro k; cases k <;> decide +kernel) (by decide +kernel))

/-- an entropy has no effective value -/
example (v : ℝ) : imEffective E demo none g [.ints [0, 1, 1]] none (.str "entropy") (.str "discrete") (kwList []) ≠ some (.ok v) := by
  intro h
  obtain ⟨s, k, f, hs, hk, ha, -⟩ := C88_asked h
  rcases hk with rfl | rfl
  · exact absurd ha.2.2 (by decide)
  · exact absurd ha.2.2 (by decide)

end

end Verif
