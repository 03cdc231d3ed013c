import Verif.Model.Interaction
import Verif.Model.Entropy

/-!
# Model of the mutual-information estimator classes

`infomeasure/estimators/base.py` (`MutualInformationEstimator`,
`ConditionalMutualInformationEstimator`), `mutual_information/discrete.py`,
`mutual_information/miller_madow.py`.

The `normalize` option is modelled with the kernel estimators (`normalize01` and `kmiInit` in
`Model/Kernel.lean`); the discrete estimators
always pass `normalize=False`.
-/

namespace Verif

/-- `MutualInformationEstimator.__init__`, `infomeasure/estimators/base.py:479-516`: validation and
offset.  A variable is the list of its samples (numbers or rows); `offset = none` is Python's `None`,
which passes the first check and then fails in `None > 0`. -/
def miInit {α : Type} (data : List (List α)) (offset : Option Int) : Except Exc (List (List α)) :=
  if data.length < 2 then .error .valueError
  else if data.length > 2 ∧ ¬ (offset = some 0 ∨ offset = none) then .error .valueError
  else if data.all (fun v => decide (v.length = (data.headD []).length)) = false then
    .error .valueError
  else
    match offset with
    | none => .error .typeError
    | some o =>
      if o > 0 then
        .ok [pySlice (data.getD 0 []) none (orNone (-o)), pySlice (data.getD 1 []) (some o) none]
      else if o < 0 then
        .ok [pySlice (data.getD 0 []) (some (-o)) none, pySlice (data.getD 1 []) none (orNone o)]
      else .ok data

/-- `DiscreteMIEstimator` (`mm = false`, `mutual_information/discrete.py:41-76`, `92-100`) and
`MillerMadowMIEstimator` (`mm = true`, `mutual_information/miller_madow.py:39-69`, `110-120`), global value:
constructor, then `mutual_information_global` with the estimator's base. -/
noncomputable def discreteMI (data : MIData) (offset : Option Int) (base : Base) (mm : Bool := false) :
    Except Exc ℝ :=
  match data with
  | .all1D cols => do
    let d ← miInit cols offset
    miGlobal (logBase base) (.all1D d) (if mm then some base else none)
  | .all2D cols => do
    let d ← miInit cols offset
    miGlobal (logBase base) (.all2D d) (if mm then some base else none)
  | .mixed => miGlobal (logBase base) .mixed none

/-- local values of the same estimators, `mutual_information/discrete.py:102-110`,
`mutual_information/miller_madow.py:122-132`.  Simplified: `local_vals` computes the global value first, which adds an exception only for
empty data. -/
noncomputable def discreteMILocal {α : Type} [LinearOrder α] (data : List (List α))
    (offset : Option Int) (base : Base) (mm : Bool := false) : Except Exc (List ℝ) := do
  let d ← miInit data offset
  miLocal (logBase base) d (if mm then some base else none)

/-- the `cond` argument of the discrete CMI estimators: a Python list (flat or nested), a NumPy array
(1, 2 or another number of dimensions) or a tuple of 1-D arrays -/
inductive CondArg
  | list1 (xs : List Int)
  | list2
  | arr1 (xs : List Int)
  | arr2 (rows : List (List Int))
  | arrOther
  | tup (cols : List (List Int))

/-- how `cond` becomes a one-dimensional array.  `DiscreteCMIEstimator` reduces tuples and arrays
(`mutual_information/discrete.py:67-76`); `MillerMadowCMIEstimator` does not, and everything that is
not one-dimensional is a ValueError (from the length check `base.py:650-654` or from
`discrete_interaction_information.py:386-387`). -/
def condReduce (mm : Bool) (c : CondArg) : Except Exc (List Int) :=
  match c with
  | .list1 xs => .ok xs
  | .list2 => .error .valueError
  | .arr1 xs => .ok xs
  | .arr2 rows => if mm then .error .valueError else reduceJointSpace (.arr2 rows)
  | .arrOther => .error .valueError
  | .tup cols => if mm then .error .valueError else reduceJointSpace (.tup cols)

/-- `ConditionalMutualInformationEstimator.__init__`, `infomeasure/estimators/base.py:637-667`, for an
already reduced condition.  Only the first two variables are checked here; further variables of
another length are rejected when the sparse table is built (ragged `coords`, ValueError). -/
def cmiInit {α γ : Type} (data : List (List α)) (cond : Option (List γ)) (offset : Option Int) :
    Except Exc (List (List α) × List γ) :=
  match cond with
  | none => .error .valueError
  | some z =>
    if ¬ (offset = some 0 ∨ offset = none) then .error .valueError
    else
      match data with
      | x :: y :: rest =>
        if x.length ≠ y.length ∨ x.length ≠ z.length then .error .valueError
        else if rest.all (fun v => decide (v.length = z.length)) = false then .error .valueError
        else .ok (data, z)
      | _ => .error .indexError

/-- `DiscreteCMIEstimator` / `MillerMadowCMIEstimator`, global value, `mutual_information/discrete.py:127-137`,
`mutual_information/miller_madow.py:165-178`, through `conditional_mutual_information_global`,
`discrete_interaction_information.py:334-393`. -/
noncomputable def discreteCMI {α : Type} [LinearOrder α] (data : List (List α))
    (cond : Option CondArg) (offset : Option Int) (base : Base) (mm : Bool := false) :
    Except Exc ℝ := do
  let z ← match cond with
    | none => pure none
    | some c => (condReduce mm c).map some
  let dz ← cmiInit data z offset
  cmiNdInt (logBase base) dz.1 dz.2 (if mm then some base else none)

/-- local values of the same estimators, `mutual_information/discrete.py:139-149`,
`mutual_information/miller_madow.py:180-193`. -/
noncomputable def discreteCMILocal {α : Type} [LinearOrder α] (data : List (List α))
    (cond : Option CondArg) (offset : Option Int) (base : Base) (mm : Bool := false) :
    Except Exc (List ℝ) := do
  let z ← match cond with
    | none => pure none
    | some c => (condReduce mm c).map some
  let dz ← cmiInit data z offset
  cmiLocal (logBase base) dz.1 dz.2 (if mm then some base else none)

/-! ## Entropy-combination fallback -/

/-- A discrete entropy estimator class as the generic combination uses it: global value and local
values of one variable. -/
structure HEst where
  globalVal : DiscreteData Int → Except Exc ℝ
  localVals : DiscreteData Int → Except Exc (List ℝ)

/-- `estimator(var, **kwargs)` for one variable -/
noncomputable def hConstruct (a : EInput) : Except Exc (DiscreteData Int) := do
  match (← discreteHInit [a]) with
  | [d] => pure d
  | _ => .error .runtimeError

/-- `entropy(x, approach=…)` of an estimator class for one argument: constructor, then dispatch to
`_simple_entropy`, `infomeasure/estimators/base.py:366-388` -/
noncomputable def HEst.entropy (est : HEst) (a : EInput) : Except Exc ℝ := do
  let d ← hConstruct a
  est.globalVal d

/-- the plug-in entropy estimator as the generic combination sees it,
`infomeasure/estimators/entropy/discrete.py:66-93` -/
noncomputable def pluginH (b : Base) : HEst := ⟨discreteSimple b, discreteLocal b⟩

/-- `numpy.sum(list_of_arrays, axis=0)`; ragged input is a ValueError -/
noncomputable def npSumAxis0 (ls : List (List ℝ)) : Except Exc (List ℝ) :=
  if ls.all (fun l => decide (l.length = (ls.headD []).length)) then
    .ok ((List.range (ls.headD []).length).map (fun t => (ls.map (fun l => l.getD t 0)).sum))
  else .error .valueError

/-- `a - b` for arrays of equal length; otherwise NumPy raises ValueError -/
noncomputable def npSub (a b : List ℝ) : Except Exc (List ℝ) :=
  if a.length = b.length then .ok (List.zipWith (fun x y => x - y) a b) else .error .valueError

/-- Sum of the estimates of `plus` minus the estimates of `minus`, from the local values if the
estimator supports them and else from the global values; the array is then averaged by
`Estimator.calculate` (`infomeasure/estimators/base.py:74-99`).
`base.py:566-583` (MI), `base.py:724-743` (CMI), `base.py:905-943` (TE). -/
noncomputable def combineH (est : HEst) (plus minus : List (DiscreteData Int)) : Except Exc ℝ :=
  let viaLocal : Except Exc (List ℝ) := do
    let ps ← plus.mapM est.localVals
    let s ← npSumAxis0 ps
    minus.foldlM (fun acc d => do
      let l ← est.localVals d
      npSub acc l) s
  match viaLocal with
  | .ok arr => .ok (arr.sum / arr.length)
  | .error e =>
    if e = .unsupportedOperation ∨ e = .theoreticalInconsistency then do
      let gs ← plus.mapM est.globalVal
      let ms ← minus.mapM est.globalVal
      pure (ms.foldl (fun acc v => acc - v) gs.sum)
    else .error e

/-- `MutualInformationEstimator._generic_mi_from_entropy` (no noise),
`infomeasure/estimators/base.py:518-583`, followed by `calculate`. -/
noncomputable def genericMI (est : HEst) (cols : List (List Int)) (offset : Option Int) :
    Except Exc ℝ := do
  let d ← miInit cols offset
  let hs ← d.mapM (fun v => hConstruct (.arr1 v))
  let hj ← hConstruct (.tup d)
  combineH est hs [hj]

/-- `ConditionalMutualInformationEstimator._generic_cmi_from_entropy` (no noise),
`infomeasure/estimators/base.py:637-745`, for a one-dimensional condition. -/
noncomputable def genericCMI (est : HEst) (cols : List (List Int)) (cond : List Int)
    (offset : Option Int) : Except Exc ℝ := do
  let dz ← cmiInit cols (some cond) offset
  let hs ← dz.1.mapM (fun v => hConstruct (.tup [v, dz.2]))
  let hj ← hConstruct (.tup (dz.1 ++ [dz.2]))
  let hz ← hConstruct (.arr1 dz.2)
  combineH est hs [hj, hz]

end Verif
