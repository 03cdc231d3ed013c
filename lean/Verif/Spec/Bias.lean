import Verif.Spec.Info
import Mathlib.NumberTheory.Harmonic.EulerMascheroni

/-!
# Independent specification: published bias-corrected entropy formulas (nats)

`n_a` is the number of occurrences of symbol `a`, `N` the sample size.
-/

namespace Verif.Spec

variable {α : Type*} [DecidableEq α]

/-- digamma function at a positive integer: `ψ(n) = −γ + Σ_{k=1}^{n−1} 1/k` -/
noncomputable def psi (n : Nat) : ℝ :=
  - Real.eulerMascheroniConstant + ∑ k ∈ Finset.range (n - 1), 1 / ((k : ℝ) + 1)

/-- Miller–Madow: plug-in entropy plus `(K − 1) / (2 N)` -/
noncomputable def millerMadow (xs : List α) : ℝ :=
  entropy xs + ((xs.toFinset.card : ℝ) - 1) / (2 * xs.length)

/-- Grassberger: `Σ_a p_a (log N − ψ(n_a) − (−1)^{n_a} / (n_a + 1))` -/
noncomputable def grassberger (xs : List α) : ℝ :=
  ∑ a ∈ xs.toFinset, freq xs a *
    (Real.log xs.length - psi (cnt xs a) - (-1) ^ cnt xs a / ((cnt xs a : ℝ) + 1))

/-- Zhang: `Σ_a p_a Σ_{v=1}^{N−n_a} (1/v) Π_{j=0}^{v−1} (1 + (1 − n_a)/(N − 1 − j))` -/
noncomputable def zhang (xs : List α) : ℝ :=
  ∑ a ∈ xs.toFinset, freq xs a *
    ∑ v ∈ Finset.Icc 1 (xs.length - cnt xs a), 1 / (v : ℝ) *
      ∏ j ∈ Finset.range v, (1 + (1 - (cnt xs a : ℝ)) / ((xs.length : ℝ) - 1 - j))

/-- Bonachela: `1/(N+2) Σ_a (n_a + 1) Σ_{j=n_a+2}^{N+2} 1/j` -/
noncomputable def bonachela (xs : List α) : ℝ :=
  1 / ((xs.length : ℝ) + 2) *
    ∑ a ∈ xs.toFinset, ((cnt xs a : ℝ) + 1) *
      ∑ j ∈ Finset.Icc (cnt xs a + 2) (xs.length + 2), 1 / (j : ℝ)

/-- number of symbols that occur exactly `m` times -/
def occurring (xs : List α) (m : Nat) : Nat := (xs.toFinset.filter (fun a => cnt xs a = m)).card

/-- Good–Turing coverage as Chao–Shen use it: `1 − f₁/N`, with `f₁ = N − 1` when every symbol occurs
once -/
noncomputable def coverage (xs : List α) : ℝ :=
  1 - (if occurring xs 1 = xs.length then (xs.length : ℝ) - 1 else occurring xs 1) / xs.length

/-- Chao–Shen: `− Σ_a C p_a log (C p_a) / (1 − (1 − C p_a)^N)` -/
noncomputable def chaoShen (xs : List α) : ℝ :=
  - ∑ a ∈ xs.toFinset, (coverage xs * freq xs a) * Real.log (coverage xs * freq xs a) /
      (1 - (1 - coverage xs * freq xs a) ^ xs.length)

/-- Chao–Wang–Jost parameter `A` -/
noncomputable def cwjParam (xs : List α) : ℝ :=
  let f1 : ℝ := occurring xs 1
  let f2 : ℝ := occurring xs 2
  let n : ℝ := xs.length
  if 0 < occurring xs 2 then 2 * f2 / ((n - 1) * f1 + 2 * f2)
  else if 0 < occurring xs 1 then 2 / ((n - 1) * (f1 - 1) + 2)
  else 1

/-- Chao–Wang–Jost correction `f₁/N (1−A)^{1−N} (−log A − Σ_{r=1}^{N−1} (1−A)^r / r)` -/
noncomputable def cwjCorr (xs : List α) : ℝ :=
  let A := cwjParam xs
  (occurring xs 1 : ℝ) / xs.length * (1 - A) ^ (1 - (xs.length : ℤ)) *
    (- Real.log A - ∑ r ∈ Finset.Icc 1 (xs.length - 1), (1 - A) ^ r / r)

open Classical in
/-- Chao–Wang–Jost: `Σ_a (n_a/N) Σ_{k=n_a}^{N−1} 1/k` plus the correction when `f₁ > 0` and `A ≠ 1` -/
noncomputable def chaoWangJost (xs : List α) : ℝ :=
  ∑ a ∈ xs.toFinset, freq xs a * ∑ k ∈ Finset.Ico (cnt xs a) xs.length, 1 / (k : ℝ)
    + if 0 < occurring xs 1 ∧ cwjParam xs ≠ 1 then cwjCorr xs else 0

/-- entropy of a list of probabilities -/
noncomputable def entropyOf (ps : List ℝ) : ℝ := - (ps.map (fun p => p * Real.log p)).sum

open Classical in
/-- James–Stein shrinkage weight (Hausser and Strimmer): `(1 − Σ p²) / ((N − 1) Σ (1/K − p)²)` clipped to
`[0, 1]`; 1 for a single observation or when all frequencies already equal `1/K` -/
noncomputable def shrinkWeight (xs : List α) : ℝ :=
  let t : ℝ := 1 / (xs.toFinset.card : ℝ)
  let msp : ℝ := ∑ a ∈ xs.toFinset, (t - freq xs a) ^ 2
  if xs.length ≤ 1 ∨ msp = 0 then 1
  else max 0 (min 1 ((1 - ∑ a ∈ xs.toFinset, freq xs a ^ 2) / (((xs.length : ℝ) - 1) * msp)))

/-- shrunk probability: mixture of the uniform distribution and the relative frequency -/
noncomputable def shrinkProb (xs : List α) (a : α) : ℝ :=
  shrinkWeight xs * (1 / (xs.toFinset.card : ℝ)) + (1 - shrinkWeight xs) * freq xs a

/-- shrinkage entropy -/
noncomputable def shrink (xs : List α) : ℝ :=
  - ∑ a ∈ xs.toFinset, shrinkProb xs a * Real.log (shrinkProb xs a)

/-- Bayesian probability of an observed symbol under a symmetric Dirichlet prior with concentration
`α` over `K` symbols: `(n_a + α) / (N + K α)` -/
noncomputable def bayesProb (xs : List α) (K alpha : ℝ) (a : α) : ℝ :=
  ((cnt xs a : ℝ) + alpha) / ((xs.length : ℝ) + K * alpha)

/-- Bayesian entropy: `− Σ p log p` over the observed symbols -/
noncomputable def bayes (xs : List α) (K alpha : ℝ) : ℝ :=
  - ∑ a ∈ xs.toFinset, bayesProb xs K alpha a * Real.log (bayesProb xs K alpha a)

/-- asymptotic NSB: `(γ − log 2) + 2 log N − ψ(N − K)` -/
noncomputable def ansb (N K : Nat) : ℝ :=
  (Real.eulerMascheroniConstant - Real.log 2) + 2 * Real.log N - psi (N - K)

end Verif.Spec
