import Verif.Spec.Info

/-!
# Independent specification: cross-entropy and divergences of finite samples

Nothing here refers to the model of the code.  All quantities are in nats.
-/

namespace Verif.Spec

variable {α : Type*} [DecidableEq α]

/-- Cross-entropy restricted to the common support: `- Σ_{a in both} p(a) log q(a)`. -/
noncomputable def crossEntropy (xs ys : List α) : ℝ :=
  - ∑ a ∈ xs.toFinset ∩ ys.toFinset, freq xs a * Real.log (freq ys a)

/-- Kullback–Leibler divergence `Σ_{a occurs in xs} p(a) log (p(a) / q(a))`; meaningful when every
symbol of the first sample occurs in the second. -/
noncomputable def kl (xs ys : List α) : ℝ :=
  ∑ a ∈ xs.toFinset, freq xs a * Real.log (freq xs a / freq ys a)

/-- probability of a symbol in the equal-weight mixture of the empirical distributions -/
noncomputable def mixture (xss : List (List α)) (a : α) : ℝ :=
  (xss.map (fun xs => freq xs a)).sum / xss.length

/-- Jensen–Shannon divergence: the average divergence of every empirical distribution from the
mixture, `(1/n) Σ_i Σ_a p_i(a) log (p_i(a) / m(a))`. -/
noncomputable def jsd (xss : List (List α)) : ℝ :=
  (xss.map (fun xs => ∑ a ∈ xs.toFinset, freq xs a * Real.log (freq xs a / mixture xss a))).sum
    / xss.length

/-- two samples have the same empirical distribution -/
def SameDist (xs ys : List α) : Prop := ∀ a, freq xs a = freq ys a

end Verif.Spec
