import Mathlib.Probability.Moments.Variance
import Verif.Spec.EndToEndNoise
import Verif.Model.EndToEnd

/-!
# Specification for C85: independent draws of variance one
-/

namespace Verif.Spec
open MeasureTheory ProbabilityTheory

/-- the draws are square-integrable, pairwise independent, of mean zero and variance one (independent standard normal numbers are) -/
structure StdDraws {Ω : Type} [MeasurableSpace Ω] (μ : Measure Ω) (X : Nat → Nat → Nat → Ω → ℝ) : Prop where
  memLp : ∀ i t j, MemLp (X i t j) 2 μ
  mean : ∀ i t j, ∫ ω, X i t j ω ∂μ = 0
  var : ∀ i t j, variance (X i t j) μ = 1
  indep : ∀ p q : Nat × Nat × Nat, p ≠ q → IndepFun (X p.1 p.2.1 p.2.2) (X q.1 q.2.1 q.2.2) μ

/-- the number in row `t` and column `j` of an array -/
def entry (v : KVar) (t j : Nat) : ℝ := ((assure2d v).rows.getD t []).getD j 0

/-- the array has a number in row `t` and column `j` -/
def HasEntry (v : KVar) (t j : Nat) : Prop := t < (assure2d v).rows.length ∧ j < ((assure2d v).rows.getD t []).length

end Verif.Spec
