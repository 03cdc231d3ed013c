import Verif.Model.BiasMI
import Mathlib.MeasureTheory.Integral.IntervalIntegral.Basic

/-!
# Model of the NSB (Nemenman–Shafee–Bialek) estimators

`infomeasure/estimators/entropy/nsb.py`, `mutual_information/nsb.py`, `transfer_entropy/nsb.py`.

Simplifications: `scipy.integrate.quad` is taken as the exact integral; the root finder of
`_find_extremum_log_rho` (Brent's method with a bounded minimisation as fall-back) is an arbitrary
function of `K` and `N` (its outcome turns out to be irrelevant); the cache of `polygamma` has no
effect on values.  A given support size `K ≤ 0` is outside the model of the entropy class (the mutual
information and transfer entropy classes reject it).
-/

namespace Verif

/-- `scipy.special.loggamma` on positive reals -/
noncomputable def logGamma (x : ℝ) : ℝ := Real.log (Real.Gamma x)

/-- `scipy.special.polygamma(1, x)`: SciPy computes `polygamma(n, x)` as `(-1)^(n+1) n! ζ(n+1, x)`, here
the Hurwitz zeta value `ζ(2, x)` -/
noncomputable def trigamma (x : ℝ) : ℝ := ∑' n : ℕ, 1 / ((n : ℝ) + x) ^ 2

/-- `_neg_log_rho`, `entropy/nsb.py:176-189` -/
noncomputable def nsbNegLogRho (β K N : ℝ) (counts : List Int) : ℝ :=
  let kappa := K * β;
  (-(logGamma kappa - logGamma (N + kappa))) -
    (counts.map (fun c : Int => (c : ℝ) * (logGamma ((c : ℝ) + β) - logGamma β))).sum

/-- `_dxi`, `entropy/nsb.py:196-199` -/
noncomputable def nsbDxi (β K : ℝ) : ℝ := K * trigamma (1 + K * β) - trigamma (1 + β)

/-- `_bayes`, `entropy/nsb.py:201-220` (the argument `K` is unused there) -/
noncomputable def nsbBayes (β : ℝ) (counts : List Int) : ℝ :=
  let total := ((counts.sum : Int) : ℝ) + (counts.length : ℝ) * β
  digamma (total + 1) - (counts.map (fun c : Int => ((c : ℝ) + β) / total * digamma ((c : ℝ) + β + 1))).sum

/-- `K = self.data[0].K if self.k_given is None else self.k_given`, `entropy/nsb.py:97` -/
def nsbSupport {α : Type} (kGiven : Option Int) (d : DiscreteData α) : Int :=
  match kGiven with
  | some k => k
  | none => (d.K : Int)

open Classical in
/-- `NsbEntropyEstimator._simple_entropy`, `entropy/nsb.py:88-154`, `nan` is `nonFinite`; `find K N` is the
result of `_find_extremum_log_rho` (`entropy/nsb.py:156-174`), used by `_find_l0` (`entropy/nsb.py:191-194`). -/
noncomputable def nsbSimple {α : Type} (find : Int → Int → ℝ) (kGiven : Option Int) (base : Base)
    (d : DiscreteData α) : Except Exc ℝ :=
  let k := nsbSupport kGiven d
  let N : ℝ := (d.N : ℝ)
  if d.N - k = 0 then .error .nonFinite
  else
    let l0 := nsbNegLogRho (find k d.N / (k : ℝ)) (k : ℝ) N d.counts
    let num := ∫ β in (0 : ℝ)..Real.log (k : ℝ),
      Real.exp (-nsbNegLogRho β (k : ℝ) N d.counts + l0) * nsbDxi β (k : ℝ) * nsbBayes β d.counts
    let den := ∫ β in (0 : ℝ)..Real.log (k : ℝ),
      Real.exp (-nsbNegLogRho β (k : ℝ) N d.counts + l0) * nsbDxi β (k : ℝ)
    if den = 0 then .error .nonFinite else scaleBase base (num / den)

/-- `NsbEntropyEstimator(*data, K=…, base=…).global_val()`: constructor `entropy/nsb.py:83-86`; the
cross-entropy (`entropy/nsb.py:237-250`) raises. -/
noncomputable def nsbEntropy (find : Int → Int → ℝ) (kGiven : Option Int) (base : Base) (args : List EInput) :
    Except Exc ℝ := do
  let data ← discreteHInit args
  entropyDispatch (nsbSimple find kGiven base) (fun _ _ => .error .theoreticalInconsistency) data

/-- the class as the generic combination uses it; local values raise, `entropy/nsb.py:222-235` -/
noncomputable def nsbH (find : Int → Int → ℝ) (kGiven : Option Int) (base : Base) : HEst :=
  ⟨nsbSimple find kGiven base, fun _ => .error .theoreticalInconsistency⟩

/-- the check `K is not None and (not isinstance(K, int) or K <= 0)`,
`mutual_information/nsb.py:73-76`, `transfer_entropy/nsb.py` -/
def nsbCheck (K : Option PyArg) : Except Exc (Option Int) :=
  match K with
  | none => .ok none
  | some (.int k) => if k ≤ 0 then .error .valueError else .ok (some k)
  | some _ => .error .valueError

/-- `NsbMIEstimator(*data, K=…, offset=…, base=…).global_val()`, `mutual_information/nsb.py:36-119` -/
noncomputable def nsbMI (find : Int → Int → ℝ) (K : Option PyArg) (cols : List (List Int)) (offset : Option Int)
    (b : Base) : Except Exc ℝ := do
  let _ ← miInit cols offset
  let k ← nsbCheck K
  genericMI (nsbH find k b) cols offset

/-- `NsbCMIEstimator(*data, cond=…, …).global_val()`, `mutual_information/nsb.py:36-75, 123-166` -/
noncomputable def nsbCMI (find : Int → Int → ℝ) (K : Option PyArg) (cols : List (List Int)) (cond : List Int)
    (offset : Option Int) (b : Base) : Except Exc ℝ := do
  let _ ← cmiInit cols (some cond) offset
  let k ← nsbCheck K
  genericCMI (nsbH find k b) cols cond offset

/-- `NsbTEEstimator(source, dest, …).global_val()`, `transfer_entropy/nsb.py:44-158` -/
noncomputable def nsbTE (find : Int → Int → ℝ) (K : Option PyArg) (source dest : List Int) (p : TEParams)
    (propTime offset : Option PyArg) (b : Base) (rnd : SrcRandom := {}) : Except Exc ℝ := do
  let _ ← teInit source dest propTime offset p.step
  let k ← nsbCheck K
  genericTE (nsbH find k b) source dest p propTime offset rnd

/-- `NsbCTEEstimator(source, dest, cond=…, …).global_val()`, `transfer_entropy/nsb.py:44-114, 161-198` -/
noncomputable def nsbCTE (find : Int → Int → ℝ) (K : Option PyArg) (source dest : List Int) (cond : Option (List Int))
    (p : TEParams) (condHist : PyArg) (propTime offset : Option PyArg) (b : Base) : Except Exc ℝ := do
  let _ ← cteInit source dest cond propTime offset
  let k ← nsbCheck K
  genericCTE (nsbH find k b) source dest cond p condHist propTime offset

end Verif
