import Verif.Model.Divergence
import Verif.Model.Nsb

/-!
# Discrete entropy estimators built from counts

`infomeasure/estimators/base.py:1128-1173`: `DiscreteHEstimator.from_counts(uniq, counts, base, …)` builds a
`DiscreteData` from the counts alone and hands it to the constructor, which stores it without the
checks and the joint-space reduction done for arrays.  `from_probabilities`
(`infomeasure/estimators/base.py:1175-1191`) calls a `DiscreteData.from_probabilities` that does not exist and is
not modelled (it always raises `AttributeError`).
-/

namespace Verif

/-- local values of the class (`_extract_local_values`, or the array Grassberger computes); Bayes, Chao–Shen (no local values: `UnsupportedOperation`),
Chao–Wang–Jost, Bonachela and ANSB (`TheoreticalInconsistencyError`) -/
noncomputable def DClass.localVals (c : DClass) (b : Base) (d : DiscreteData Int) : Except Exc (List ℝ) :=
  match c with
  | .discrete => discreteLocal b d
  | .millerMadow => (millerMadowH b).localVals d
  | .grassberger => (grassbergerH b).localVals d
  | .chaoShen => (chaoShenH b).localVals d
  | .chaoWangJost => (chaoWangJostH b).localVals d
  | .shrink => (shrinkH b).localVals d
  | .bayes α k => (bayesH α k b).localVals d
  | .zhang => (zhangH b).localVals d
  | .bonachela => (bonachelaH b).localVals d
  | .ansb k => (ansbH k b).localVals d

/-- `cls.from_counts(uniq, counts, base=base, …).global_val()`, `infomeasure/estimators/base.py:1128-1173`
(constructor with a `DiscreteData`), `infomeasure/utils/data.py:55-76`. -/
noncomputable def DClass.fromCounts (c : DClass) (b : Base) (uniq : List Int) (counts : CountArr) : Except Exc ℝ := do
  let d ← DiscreteData.fromCounts uniq counts
  entropyDispatch (c.simple b) (c.cross b) [d]

/-- `cls.from_counts(uniq, counts, base=base, …).local_vals()`: `Estimator.local_vals`,
`infomeasure/estimators/base.py:130-148`, evaluates the global value first; a `nan` or infinite value is not `None`, so it does not stop
the evaluation (line 143), an exception does. -/
noncomputable def DClass.fromCountsLocal (c : DClass) (b : Base) (uniq : List Int) (counts : CountArr) :
    Except Exc (List ℝ) := do
  let d ← DiscreteData.fromCounts uniq counts
  match entropyDispatch (c.simple b) (c.cross b) [d] with
  | .error .nonFinite => c.localVals b d
  | .error e => .error e
  | .ok _ => c.localVals b d

/-- `NsbEntropyEstimator.from_counts(uniq, counts, base=base, K=…).global_val()` -/
noncomputable def nsbFromCounts (find : Int → Int → ℝ) (kGiven : Option Int) (b : Base) (uniq : List Int)
    (counts : CountArr) : Except Exc ℝ := do
  let d ← DiscreteData.fromCounts uniq counts
  entropyDispatch (nsbSimple find kGiven b) (fun _ _ => .error .theoreticalInconsistency) [d]

end Verif
