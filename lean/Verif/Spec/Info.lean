import Mathlib.Analysis.SpecialFunctions.Log.Basic
import Mathlib.Data.Finset.Dedup
import Mathlib.Algebra.BigOperators.Group.Finset.Basic

/-!
# Independent specification: information measures of a finite sample

Nothing here refers to the model of the code.  A sample is a list of observations; its
empirical distribution gives every symbol the fraction of positions at which it occurs.
All quantities are in nats.
-/

namespace Verif.Spec

variable {α β γ : Type*} [DecidableEq α] [DecidableEq β] [DecidableEq γ]

/-- number of positions of the sample at which the symbol occurs -/
def cnt (xs : List α) (a : α) : Nat := xs.countP (fun b => decide (b = a))

/-- relative frequency of a symbol in a sample -/
noncomputable def freq (xs : List α) (a : α) : ℝ := (cnt xs a : ℝ) / (xs.length : ℝ)

/-- Shannon entropy (nats) of the empirical distribution of a sample:
`- Σ_{a occurs in xs} p(a) log p(a)`. -/
noncomputable def entropy (xs : List α) : ℝ :=
  - ∑ a ∈ xs.toFinset, freq xs a * Real.log (freq xs a)

/-- Mutual information of two aligned samples, textbook definition
`Σ p(x,y) log (p(x,y) / (p(x) p(y)))` over the pairs that occur. -/
noncomputable def mi (xs : List α) (ys : List β) : ℝ :=
  ∑ w ∈ (xs.zip ys).toFinset,
    freq (xs.zip ys) w * Real.log (freq (xs.zip ys) w / (freq xs w.1 * freq ys w.2))

/-- Conditional mutual information of two aligned samples given a third:
`Σ p(x,y,z) log (p(z) p(x,y,z) / (p(x,z) p(y,z)))` over the triples that occur. -/
noncomputable def cmi (xs : List α) (ys : List β) (zs : List γ) : ℝ :=
  ∑ w ∈ (xs.zip (ys.zip zs)).toFinset,
    freq (xs.zip (ys.zip zs)) w *
      Real.log (freq zs w.2.2 * freq (xs.zip (ys.zip zs)) w /
        (freq (xs.zip zs) (w.1, w.2.2) * freq (ys.zip zs) (w.2.1, w.2.2)))

/-- Row `t` of a list of aligned variables (columns). -/
def row [Inhabited α] (cols : List (List α)) (t : Nat) : List α := cols.map (fun c => c.getD t default)

/-- Rows of a list of aligned variables, for a sample of size `n`. -/
def rows [Inhabited α] (n : Nat) (cols : List (List α)) : List (List α) := (List.range n).map (row cols)

/-- Total correlation of `n` aligned variables: `Σ H(X_i) − H(X_1, …, X_n)`. -/
noncomputable def totalCorrelation [Inhabited α] (n : Nat) (cols : List (List α)) : ℝ :=
  (cols.map entropy).sum - entropy (rows n cols)

/-- Conditional entropy `H(X | Z) = H(X, Z) − H(Z)`. -/
noncomputable def condEntropy (xs : List α) (zs : List β) : ℝ :=
  entropy (xs.zip zs) - entropy zs

/-- Conditional total correlation `Σ H(X_i | Z) − H(X_1, …, X_n | Z)`. -/
noncomputable def condTotalCorrelation [Inhabited α] (n : Nat) (cols : List (List α)) (zs : List β) : ℝ :=
  (cols.map (fun c => condEntropy c zs)).sum - condEntropy (rows n cols) zs

/-- mean of a list of numbers -/
noncomputable def mean (l : List ℝ) : ℝ := l.sum / l.length

end Verif.Spec
