import Verif.Spec.AlmostSure

/-!
# Vocabulary of C104: cross-entropy and divergences of probability distributions on a finite set

In nats.
-/

namespace Verif.Spec

variable {α : Type}

/-- cross-entropy of `p` and `q` over the symbols to which `q` gives a positive probability: `− Σ p(a) log q(a)` -/
noncomputable def crossOf (S : Finset α) (p q : α → ℝ) : ℝ := - ∑ a ∈ S with q a ≠ 0, p a * Real.log (q a)

/-- Kullback–Leibler divergence `Σ p(a) log (p(a) / q(a))` over the symbols to which `p` gives a positive probability -/
noncomputable def klOf (S : Finset α) (p q : α → ℝ) : ℝ := ∑ a ∈ S with p a ≠ 0, p a * Real.log (p a / q a)

/-- the equal-weight mixture of `m` distributions -/
noncomputable def mixOf {m : ℕ} (P : Fin m → α → ℝ) (a : α) : ℝ := (∑ j, P j a) / m

/-- generalised Jensen–Shannon divergence: the average divergence of the distributions from their mixture -/
noncomputable def jsdOf {m : ℕ} (S : Finset α) (P : Fin m → α → ℝ) : ℝ := (∑ j, klOf S (P j) (mixOf P)) / m

end Verif.Spec
