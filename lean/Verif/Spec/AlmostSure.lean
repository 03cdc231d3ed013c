import Verif.Spec.Consistency
import Mathlib.MeasureTheory.Measure.Real
import Mathlib.Probability.IdentDistrib

/-!
# Vocabulary of C94: random observations

`X i ω` is observation number `i` in the outcome `ω` of the experiment.
-/

namespace Verif.Spec

open MeasureTheory ProbabilityTheory

variable {Ω : Type} [MeasurableSpace Ω] {α : Type}

/-- the first `n` observations of the outcome `ω` -/
def observed {Ω α : Type} (X : ℕ → Ω → α) (n : ℕ) (ω : Ω) : List α := (List.range n).map (fun i => X i ω)

/-- The observations are random symbols of the finite alphabet `S`, each distributed as `p`, and observations that are at least `M` steps apart
are independent. `M = 1`: (pairwise) independent and identically distributed observations. -/
structure Sampling (μ : Measure Ω) (X : ℕ → Ω → α) (S : Finset α) (p : α → ℝ) (M : ℕ) : Prop where
  measurable : ∀ i, ∀ a ∈ S, MeasurableSet {ω | X i ω = a}
  mem : ∀ i, ∀ᵐ ω ∂μ, X i ω ∈ S
  law : ∀ i, ∀ a ∈ S, μ.real {ω | X i ω = a} = p a
  indep : ∀ i j, i + M ≤ j → ∀ a ∈ S, ∀ b ∈ S, μ.real {ω | X i ω = a ∧ X j ω = b} = p a * p b

/-- independent and identically distributed observations with values in the finite set `S` -/
structure Iid [MeasurableSpace α] (μ : Measure Ω) (U : ℕ → Ω → α) (S : Finset α) : Prop where
  measurable : ∀ i, Measurable (U i)
  mem : ∀ i, ∀ᵐ ω ∂μ, U i ω ∈ S
  indep : iIndepFun U μ
  same : ∀ i, IdentDistrib (U i) (U 0) μ μ

/-- what the transfer entropy compares at row `i` (history lengths `l` of the source, `k` of the target, step `s`): the future value of the target,
the history of the source, the history of the target -/
def teWindow (X Y : ℕ → Ω → Int) (l k s i : ℕ) (ω : Ω) : List Int × List Int × List Int :=
  ([Y ((max k l + i) * s) ω], (List.range l).map (fun j => X ((max k l + i - l + j) * s) ω),
    (List.range k).map (fun j => Y ((max k l + i - k + j) * s) ω))

/-- the same for the conditional transfer entropy, with the history (length `c`) of the condition joined to that of the target -/
def cteWindow (X Y Z : ℕ → Ω → Int) (l k c s i : ℕ) (ω : Ω) : List Int × List Int × List Int × List Int :=
  ([Y ((max (max k l) c + i) * s) ω], (List.range l).map (fun j => X ((max (max k l) c + i - l + j) * s) ω),
    (List.range k).map (fun j => Y ((max (max k l) c + i - k + j) * s) ω), (List.range c).map (fun j => Z ((max (max k l) c + i - c + j) * s) ω))

section
variable {A B C : Type} [DecidableEq A] [DecidableEq B] [DecidableEq C]

/-- mutual information (nats) of the two components of a random pair distributed as `p` on `S`: `H(U) + H(V) − H(U,V)` -/
noncomputable def pairInfo (S : Finset (A × B)) (p : A × B → ℝ) : ℝ :=
  shannonOf S p (fun w => w.1) + shannonOf S p (fun w => w.2) - shannon S p

/-- conditional mutual information (nats) `I(U;V|Z) = H(U,Z) + H(V,Z) − H(U,V,Z) − H(Z)` of a random triple `(U,V,Z)` distributed as `p` on `S` -/
noncomputable def tripleInfo (S : Finset (A × B × C)) (p : A × B × C → ℝ) : ℝ :=
  shannonOf S p (fun w => (w.1, w.2.2)) + shannonOf S p (fun w => w.2) - shannon S p - shannonOf S p (fun w => w.2.2)

/-- variance of the surprise `−log q(f(W))` of a random element `W` of `S` distributed as `p`, where `q` is the distribution of `f(W)` -/
noncomputable def spreadOf {A B : Type} [DecidableEq A] [DecidableEq B] (S : Finset A) (p : A → ℝ) (f : A → B) : ℝ :=
  ∑ b ∈ S.image f, (∑ a ∈ S with f a = b, p a) * (Real.log (∑ a ∈ S with f a = b, p a) + shannonOf S p f) ^ 2

end

end Verif.Spec
