import Verif.Spec.Bias
import Mathlib.Analysis.SpecialFunctions.Gamma.Deriv
import Mathlib.MeasureTheory.Integral.IntervalIntegral.Basic

/-!
# Independent specification: the NSB estimate (nats)

A Dirichlet prior with concentration `β` on every cell; `β` is mixed with the weight `dξ(β)` that makes
the prior mean entropy `ξ(β)` uniform.  `estimate` is what the library computes: the likelihood of every
symbol is raised to the power of its count, `β` runs over `(0, log K)` and only observed symbols enter the
posterior mean.  `publishedEstimate` is the estimator of Nemenman, Shafee and Bialek.
-/

namespace Verif.Spec.Nsb

/-- digamma: logarithmic derivative of Γ -/
noncomputable def psi (x : ℝ) : ℝ := deriv Real.Gamma x / Real.Gamma x

/-- prior mean entropy of `K` cells: `ξ(β) = ψ(Kβ + 1) − ψ(β + 1)` -/
noncomputable def priorMean (K β : ℝ) : ℝ := psi (K * β + 1) - psi (β + 1)

/-- rising factorial `β (β+1) ⋯ (β+n−1)` -/
noncomputable def rising (β : ℝ) (n : Nat) : ℝ := ∏ j ∈ Finset.range n, (β + j)

section
variable {α : Type*} [DecidableEq α]

/-- mean entropy of a Dirichlet distribution with parameters `n_a + β` over the observed symbols -/
noncomputable def posteriorMean (xs : List α) (β : ℝ) : ℝ :=
  let A : ℝ := xs.length + xs.toFinset.card * β
  psi (A + 1) - ∑ a ∈ xs.toFinset, ((cnt xs a : ℝ) + β) / A * psi ((cnt xs a : ℝ) + β + 1)

/-- weight of `β` in the library: `∏_a ((β)_{n_a})^{n_a} / (Kβ)_N · dξ/dβ` -/
noncomputable def weight (xs : List α) (K : ℝ) (β : ℝ) : ℝ :=
  (∏ a ∈ xs.toFinset, rising β (cnt xs a) ^ cnt xs a) / rising (K * β) xs.length * deriv (priorMean K) β

/-- what the library computes -/
noncomputable def estimate (xs : List α) (K : ℝ) : ℝ :=
  (∫ β in (0 : ℝ)..Real.log K, weight xs K β * posteriorMean xs β) / ∫ β in (0 : ℝ)..Real.log K, weight xs K β

/-- published weight: `∏_a (β)_{n_a} / (Kβ)_N · dξ/dβ` -/
noncomputable def publishedWeight (xs : List α) (K : ℝ) (β : ℝ) : ℝ :=
  (∏ a ∈ xs.toFinset, rising β (cnt xs a)) / rising (K * β) xs.length * deriv (priorMean K) β

/-- published posterior mean: Dirichlet over all `K` cells, the `K − K_obs` unobserved ones with count 0 -/
noncomputable def publishedMean (xs : List α) (K : ℝ) (β : ℝ) : ℝ :=
  let A : ℝ := xs.length + K * β
  psi (A + 1) - ((∑ a ∈ xs.toFinset, ((cnt xs a : ℝ) + β) / A * psi ((cnt xs a : ℝ) + β + 1)) +
    (K - xs.toFinset.card) * (β / A * psi (β + 1)))

/-- the published estimator: `β` over all positive numbers -/
noncomputable def publishedEstimate (xs : List α) (K : ℝ) : ℝ :=
  (∫ β in Set.Ioi (0 : ℝ), publishedWeight xs K β * publishedMean xs K β) / ∫ β in Set.Ioi (0 : ℝ), publishedWeight xs K β

end

end Verif.Spec.Nsb
