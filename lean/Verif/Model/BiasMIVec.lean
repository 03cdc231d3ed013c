import Verif.Model.BiasMI
import Verif.Model.Nsb

/-!
# Model of the bias-corrected mutual-information classes for integer arrays of one or two dimensions

`infomeasure/estimators/base.py:479-583, 637-745` as used by `mutual_information/{grassberger,chao_shen,chao_wang_jost,shrink,zhang,
bonachela,bayes,ansb,nsb}.py`.  A two-dimensional array is a series of vectors (its rows).  `Model/BiasMI.lean` and `Model/Nsb.lean` have
the one-dimensional case; the agreement is proved (`biasMIArr_one`, `biasCMIArr_one` and the like in `Lemmas/BiasMIVec.lean`).
-/

namespace Verif

/-- an integer array of one (`two = false`) or two dimensions by its samples, as `asarray(d)` keeps it (`estimators/base.py:492, 655-656`); a sample
of a one-dimensional array is stored as a one-component row -/
structure IArr where
  two : Bool
  rows : List (List Int)

/-- the array as argument of an entropy class, `estimators/base.py:567, 727` -/
def IArr.input (a : IArr) : EInput := if a.two then .arr2 a.rows else .arr1 (a.rows.map (fun r => r.headD 0))

/-- `numpy.column_stack` of arrays of one or two dimensions, as called in `estimators/utils/ordinal.py:203`: the rows side by side; ValueError for no
array or different lengths -/
def stackArr (vs : List IArr) : Except Exc (List (List Int)) :=
  match vs with
  | [] => .error .valueError
  | v :: rest =>
    if rest.all (fun u => decide (u.rows.length = v.rows.length)) then
      .ok ((List.range v.rows.length).map (fun t => ((v :: rest).map (fun u => u.rows.getD t [])).flatten))
    else .error .valueError

/-- `estimator((a, b, …), **kwargs)`, the constructor of an entropy class for a tuple of arrays of one or two dimensions:
`estimators/base.py:330-341` (equal lengths), `base.py:1270-1283` (the joint space), then the counting of `hConstruct` -/
noncomputable def hConstructTup (vs : List IArr) : Except Exc (DiscreteData Int) := do
  let rows ← stackArr vs
  hConstruct (.arr2 rows)

/-- `_generic_mi_from_entropy` (no noise), `estimators/base.py:518-583` -/
noncomputable def genericMIArr (est : HEst) (vars : List IArr) (offset : Option Int) : Except Exc ℝ := do
  let d ← miInit (vars.map IArr.rows) offset
  let vs := List.zipWith (fun a r => IArr.mk a.two r) vars d
  let hs ← vs.mapM (fun v => hConstruct v.input)
  let hj ← hConstructTup vs
  combineH est hs [hj]

/-- `_generic_cmi_from_entropy` (no noise), `estimators/base.py:637-745` -/
noncomputable def genericCMIArr (est : HEst) (vars : List IArr) (cond : IArr) (offset : Option Int) : Except Exc ℝ := do
  let _ ← cmiInit (vars.map IArr.rows) (some cond.rows) offset
  let hs ← vars.mapM (fun v => hConstructTup [v, cond])
  let hj ← hConstructTup (vars ++ [cond])
  let hz ← hConstruct cond.input
  combineH est hs [hj, hz]

/-- `if self.normalize and any(var.ndim != 1 …): raise ValueError`, `estimators/base.py:510-512, 659-662`.  The one-dimensional case of
`normalize=True` is not modelled here. -/
def normCheck (normalize : Bool) : Except Exc Unit := if normalize then .error .valueError else .ok ()

/-- `XMIEstimator(*data, offset=…, normalize=…, base=…, …).global_val()` of a bias-corrected class: base constructor, parameter checks,
`_calculate`, as `biasMI` (`mutual_information/grassberger.py:35-68, 100-112` and the like) -/
noncomputable def biasMIArr (c : BiasClass) (vars : List IArr) (offset : Option Int) (normalize : Bool) (b : Base) : Except Exc ℝ := do
  let _ ← miInit (vars.map IArr.rows) offset
  normCheck normalize
  c.check
  genericMIArr (c.est b) vars offset

/-- the same for the conditional classes, as `biasCMI` (`mutual_information/grassberger.py:148-159` and the like) -/
noncomputable def biasCMIArr (c : BiasClass) (vars : List IArr) (cond : IArr) (offset : Option Int) (normalize : Bool) (b : Base) :
    Except Exc ℝ := do
  let _ ← cmiInit (vars.map IArr.rows) (some cond.rows) offset
  normCheck normalize
  c.check
  genericCMIArr (c.est b) vars cond offset

/-- NSB, `mutual_information/nsb.py:36-119` -/
noncomputable def nsbMIArr (find : Int → Int → ℝ) (K : Option PyArg) (vars : List IArr) (offset : Option Int) (normalize : Bool) (b : Base) :
    Except Exc ℝ := do
  let _ ← miInit (vars.map IArr.rows) offset
  normCheck normalize
  let k ← nsbCheck K
  genericMIArr (nsbH find k b) vars offset

/-- NSB, conditional, `mutual_information/nsb.py:36-75, 123-166` -/
noncomputable def nsbCMIArr (find : Int → Int → ℝ) (K : Option PyArg) (vars : List IArr) (cond : IArr) (offset : Option Int)
    (normalize : Bool) (b : Base) : Except Exc ℝ := do
  let _ ← cmiInit (vars.map IArr.rows) (some cond.rows) offset
  normCheck normalize
  let k ← nsbCheck K
  genericCMIArr (nsbH find k b) vars cond offset

end Verif
