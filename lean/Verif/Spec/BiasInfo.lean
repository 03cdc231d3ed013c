import Verif.Spec.Bias

/-!
# Independent specification: information measures from bias-corrected entropies (nats)

A mutual information of the families below is by definition `Σ H(X_i) − H(X_1,…,X_n)` with the
published entropy formula of `Spec/Bias.lean`; likewise for the conditional measures.
-/

namespace Verif.Spec

/-- choice of the concentration of the Dirichlet prior: a number, `1/K`, or `√N / K` -/
inductive Prior
  | fixed (a : ℝ)
  | schuermannGrassberger
  | minimax

/-- the concentration, given the support size and the sample size -/
noncomputable def Prior.conc (p : Prior) (K N : ℝ) : ℝ :=
  match p with
  | .fixed a => a
  | .schuermannGrassberger => 1 / K
  | .minimax => Real.sqrt N / K

/-- the entropy estimates that are combined -/
inductive Method
  | grassberger
  | chaoShen
  | chaoWangJost
  | shrink
  | zhang
  | bonachela
  | bayes (prior : Prior) (K : Option Nat)
  | ansb

section
variable {α : Type*} [DecidableEq α]

/-- cross-entropy of the sample relative to its shrunk distribution: `− Σ_a p_a log p_a^shrink`
(the average of `−log p^shrink` over the sample) -/
noncomputable def shrinkCross (xs : List α) : ℝ :=
  - ∑ a ∈ xs.toFinset, freq xs a * Real.log (shrinkProb xs a)

/-- support size: the given one or the observed one -/
noncomputable def supportSize (xs : List α) (K : Option Nat) : ℝ :=
  match K with
  | some k => (k : ℝ)
  | none => (xs.toFinset.card : ℝ)

/-- the estimate on one sample -/
noncomputable def Method.value (m : Method) (xs : List α) : ℝ :=
  match m with
  | .grassberger => Spec.grassberger xs
  | .chaoShen => Spec.chaoShen xs
  | .chaoWangJost => Spec.chaoWangJost xs
  | .shrink => shrinkCross xs
  | .zhang => Spec.zhang xs
  | .bonachela => Spec.bonachela xs
  | .bayes p K => Spec.bayes xs (supportSize xs K) (p.conc (supportSize xs K) xs.length)
  | .ansb => Spec.ansb xs.length xs.toFinset.card

/-- the estimate exists: ANSB needs a repeated symbol, the others always exist -/
def Method.Defined (m : Method) (xs : List α) : Prop :=
  match m with
  | .ansb => ¬ xs.Nodup
  | _ => True

end

end Verif.Spec
