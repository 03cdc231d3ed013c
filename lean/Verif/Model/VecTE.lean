import Verif.Model.ExpMI
import Verif.Model.BiasMI
import Verif.Model.Gauss

/-!
# Model of the transfer entropy of vector-valued series

A two-dimensional `source`, `dest` or `cond` (shape `(n, m)`) is the list of its `n` rows; NumPy arrays are rectangular, so all
rows have the same length.  A one-dimensional array is indexed by the same code without the final flattening; it is modelled
here as the list of its one-component rows, and `C72_scalar_*` proves that this gives the one-dimensional model of `Model/TE.lean`.
Prop-time shift and embedding index the first axis only, so `teInit`, `cteInit`, `teObservations`, `cteObservations` are used
with the row type as element type.
-/

namespace Verif

/-- `src_history.reshape(src_history.shape[0], -1)` and the like, `te_slicing.py:219-233` and `396-404`: each history, an array
of row vectors, is flattened in time order -/
def flatSlices {α : Type} (s : TESlices (List α)) : TESlices α :=
  { src := s.src.map List.flatten, dest := s.dest.map List.flatten, fut := s.fut.map List.flatten,
    cond := s.cond.map (fun z => z.map List.flatten) }

/-- `te_observations(..., construct_joint_spaces=False)` for two-dimensional arrays, `te_slicing.py:34-234` -/
def teObservationsVec {α : Type} (source dest : List (List α)) (srcHist destHist step : PyArg) (rnd : SrcRandom := {}) :
    Except Exc (TESlices α) := do
  let s ← teObservations source dest srcHist destHist step rnd
  pure (flatSlices s)

/-- `cte_observations(..., construct_joint_spaces=False)` for two-dimensional arrays, `te_slicing.py:237-410` -/
def cteObservationsVec {α : Type} (source dest cond : List (List α)) (srcHist destHist condHist step : PyArg)
    (rnd : SrcRandom := {}) : Except Exc (TESlices α) := do
  let s ← cteObservations source dest cond srcHist destHist condHist step rnd
  pure (flatSlices s)

/-- `DiscreteTEEstimator` (`mm = false`) / `MillerMadowTEEstimator` (`mm = true`), `transfer_entropy/discrete.py:136-149`,
`transfer_entropy/miller_madow.py:134-148` -/
noncomputable def discreteTEVec (source dest : List (List Int)) (p : TEParams) (propTime offset : Option PyArg)
    (base : Base) (mm : Bool := false) (rnd : SrcRandom := {}) : Except Exc ℝ := do
  let d ← teInit source dest propTime offset p.step
  let s ← teObservationsVec d.1 d.2 p.srcHist p.destHist p.step rnd
  combinedTE (logBase base) s (if mm then some base else none)

/-- local values of the same estimators, `transfer_entropy/discrete.py:151-170`, `transfer_entropy/miller_madow.py:150-170` -/
noncomputable def discreteTEVecLocal (source dest : List (List Int)) (p : TEParams) (propTime offset : Option PyArg)
    (base : Base) (mm : Bool := false) (rnd : SrcRandom := {}) : Except Exc (List ℝ) := do
  let d ← teInit source dest propTime offset p.step
  let s ← teObservationsVec d.1 d.2 p.srcHist p.destHist p.step rnd
  combinedTELocal (logBase base) s (if mm then some base else none)

/-- `DiscreteCTEEstimator` / `MillerMadowCTEEstimator`, `transfer_entropy/discrete.py:192-205`,
`transfer_entropy/miller_madow.py:192-206` -/
noncomputable def discreteCTEVec (source dest : List (List Int)) (cond : Option (List (List Int))) (p : TEParams)
    (condHist : PyArg) (propTime offset : Option PyArg) (base : Base) (mm : Bool := false) : Except Exc ℝ := do
  let d ← cteInit source dest cond propTime offset
  let s ← cteObservationsVec d.1 d.2.1 d.2.2 p.srcHist p.destHist condHist p.step
  combinedTE (logBase base) s (if mm then some base else none)

/-- local values of the same estimators, `transfer_entropy/discrete.py:207-226`, `transfer_entropy/miller_madow.py:208-228`; the
global value is computed first -/
noncomputable def discreteCTEVecLocal (source dest : List (List Int)) (cond : Option (List (List Int))) (p : TEParams)
    (condHist : PyArg) (propTime offset : Option PyArg) (base : Base) (mm : Bool := false) : Except Exc (List ℝ) := do
  let d ← cteInit source dest cond propTime offset
  let s ← cteObservationsVec d.1 d.2.1 d.2.2 p.srcHist p.destHist condHist p.step
  let _ ← combinedTE (logBase base) s (if mm then some base else none)
  combinedTELocal (logBase base) s (if mm then some base else none)

/-- the `cond` argument of the discrete conditional transfer entropy: one series (list or 1-D array), a nested list
(`asArray = false`) or 2-D array (`asArray = true`) of row vectors, or a tuple of 1-D arrays -/
inductive CondSeries
  | one (xs : List Int)
  | rows (asArray : Bool) (rs : List (List Int))
  | tup (cols : List (List Int))

/-- the condition as the series of its vectors.  `DiscreteCTEEstimator` first reduces tuples and arrays to one symbol per time
(`transfer_entropy/discrete.py:99-100`); `MillerMadowCTEEstimator` does not (`transfer_entropy/miller_madow.py:94-108`), so `numpy.asarray`
(`estimators/base.py:1009`) makes the i-th array of a tuple the i-th time point, if the arrays have equal length. -/
def condSeriesRows (mm : Bool) : CondSeries → Except Exc (List (List Int))
  | .one xs => .ok (xs.map (fun x => [x]))
  | .rows asArray rs =>
    if asArray = true ∧ mm = false then (reduceJointSpace (.arr2 rs)).map (fun z => z.map (fun x => [x])) else .ok rs
  | .tup cols =>
    if mm = false then (reduceJointSpace (.tup cols)).map (fun z => z.map (fun x => [x]))
    else if cols.all (fun c => decide (c.length = (cols.headD []).length)) then .ok cols
    else .error .valueError

/-- `conditional_transfer_entropy(source, dest, cond=, approach="discrete" | "miller_madow", ...)` for any form of condition -/
noncomputable def discreteCTEOf (source dest : List (List Int)) (cond : CondSeries) (p : TEParams)
    (condHist : PyArg) (propTime offset : Option PyArg) (base : Base) (mm : Bool := false) : Except Exc ℝ := do
  let z ← condSeriesRows mm cond
  discreteCTEVec source dest (some z) p condHist propTime offset base mm

/-- `_generic_te_from_entropy` (no noise), `estimators/base.py:846-943` -/
noncomputable def genericTEVec (est : HEst) (source dest : List (List Int)) (p : TEParams)
    (propTime offset : Option PyArg) (rnd : SrcRandom := {}) : Except Exc ℝ := do
  let d ← teInit source dest propTime offset p.step
  let s ← teObservationsVec d.1 d.2 p.srcHist p.destHist p.step rnd
  let sp ← constructJointSpaces s
  let h2 ← hConstruct (.arr2 sp.marginal2)
  let h1 ← hConstruct (.arr2 sp.marginal1)
  let hj ← hConstruct (.arr2 sp.joint)
  let hd ← hConstruct (.arr2 sp.destPast)
  combineH est [h2, h1] [hj, hd]

/-- `KernelTEEstimator(...).local_vals()`, `transfer_entropy/kernel.py:134-220` -/
noncomputable def kernelTEVecLocal (source dest : List (List ℝ)) (p : TEParams) (propTime offset : Option PyArg)
    (cfg : KdeCfg) (base : Base) (rnd : SrcRandom := {}) : Except Exc (List ℝ) := do
  let d ← teInit source dest propTime offset p.step
  let s ← teObservationsVec d.1 d.2 p.srcHist p.destHist p.step rnd
  let sp ← constructJointSpaces s
  kernelTECalc cfg base sp

/-- `KernelTEEstimator(...).result()` -/
noncomputable def kernelTEVec (source dest : List (List ℝ)) (p : TEParams) (propTime offset : Option PyArg)
    (cfg : KdeCfg) (base : Base) (rnd : SrcRandom := {}) : Except Exc ℝ := do
  let ls ← kernelTEVecLocal source dest p propTime offset cfg base rnd
  meanOrNan ls

/-- `KernelCTEEstimator(...).result()`, `transfer_entropy/kernel.py:250-315` -/
noncomputable def kernelCTEVec (source dest : List (List ℝ)) (cond : Option (List (List ℝ))) (p : TEParams)
    (condHist : PyArg) (propTime offset : Option PyArg) (cfg : KdeCfg) (base : Base) : Except Exc ℝ := do
  let d ← cteInit source dest cond propTime offset
  let s ← cteObservationsVec d.1 d.2.1 d.2.2 p.srcHist p.destHist condHist p.step
  let sp ← constructJointSpaces s
  let ls ← kernelTECalc cfg base sp
  meanOrNan ls

/-- `dest += rng.normal(0, noise_level, dest.shape)` for a two-dimensional array -/
def jitterVec (e : Option (Nat → Nat → ℝ)) (xs : List (List ℝ)) : List (List ℝ) :=
  match e with
  | none => xs
  | some e => xs.mapIdx (fun t r => r.mapIdx (fun c v => v + e t c))

/-- `KSGTEEstimator(...).local_vals()`, `transfer_entropy/kraskov_stoegbauer_grassberger.py:175-251` -/
noncomputable def ksgTEVecLocal (source dest : List (List ℝ)) (p : TEParams) (propTime offset : Option PyArg)
    (cfg : KsgCfg) (noiseX noiseY : Option (Nat → Nat → ℝ)) (base : Base) (rnd : SrcRandom := {}) :
    Except Exc (List ℝ) := do
  let d ← teInit source dest propTime offset p.step
  ksgIdCheck cfg
  let s ← teObservationsVec (jitterVec noiseX d.1) (jitterVec noiseY d.2) p.srcHist p.destHist p.step rnd
  let sp ← constructJointSpaces s
  ksgTECalc cfg base sp

/-- `KSGTEEstimator(...).result()` -/
noncomputable def ksgTEVec (source dest : List (List ℝ)) (p : TEParams) (propTime offset : Option PyArg)
    (cfg : KsgCfg) (noiseX noiseY : Option (Nat → Nat → ℝ)) (base : Base) (rnd : SrcRandom := {}) : Except Exc ℝ := do
  let ls ← ksgTEVecLocal source dest p propTime offset cfg noiseX noiseY base rnd
  meanOrNan ls

/-- `KSGCTEEstimator(...).local_vals()`, `transfer_entropy/kraskov_stoegbauer_grassberger.py:320-400` -/
noncomputable def ksgCTEVecLocal (source dest : List (List ℝ)) (cond : Option (List (List ℝ))) (p : TEParams)
    (condHist : PyArg) (propTime offset : Option PyArg) (cfg : KsgCfg)
    (noiseX noiseY noiseZ : Option (Nat → Nat → ℝ)) (base : Base) : Except Exc (List ℝ) := do
  let d ← cteInit source dest cond propTime offset
  ksgIdCheck cfg
  let s ← cteObservationsVec (jitterVec noiseX d.1) (jitterVec noiseY d.2.1) (jitterVec noiseZ d.2.2)
    p.srcHist p.destHist condHist p.step
  let sp ← constructJointSpaces s
  ksgTECalc cfg base sp

/-- `transfer_entropy(source, dest, approach="renyi" | "tsallis", ...)`, `transfer_entropy/renyi.py:59-141`,
`transfer_entropy/tsallis.py:60-143`, `estimators/base.py:846-943` -/
noncomputable def expTEVec (val : Nat → ℝ → KnnParts → ℝ → Base → Except Exc ℝ) (source dest : List (List ℝ)) (p : TEParams)
    (propTime offset : Option PyArg) (k order : PyArg) (noiseX noiseY : Option (Nat → Nat → ℝ)) (base : Base)
    (rnd : SrcRandom := {}) : Except Exc ℝ := do
  let d ← teInit source dest propTime offset p.step
  expParams k order
  expStepCheck p.step
  let s ← teObservationsVec (jitterVec noiseX d.1) (jitterVec noiseY d.2) p.srcHist p.destHist p.step rnd
  let sp ← constructJointSpaces s
  entropyTE (fun a => expEntropy val a k order base) sp

/-- `KSGCTEEstimator(...).result()` -/
noncomputable def ksgCTEVec (source dest : List (List ℝ)) (cond : Option (List (List ℝ))) (p : TEParams)
    (condHist : PyArg) (propTime offset : Option PyArg) (cfg : KsgCfg)
    (noiseX noiseY noiseZ : Option (Nat → Nat → ℝ)) (base : Base) : Except Exc ℝ := do
  let ls ← ksgCTEVecLocal source dest cond p condHist propTime offset cfg noiseX noiseY noiseZ base
  meanOrNan ls

/-- `_generic_cte_from_entropy` (no noise), `estimators/base.py:1020-1098` -/
noncomputable def genericCTEVec (est : HEst) (source dest : List (List Int)) (cond : Option (List (List Int))) (p : TEParams)
    (condHist : PyArg) (propTime offset : Option PyArg) : Except Exc ℝ := do
  let d ← cteInit source dest cond propTime offset
  let s ← cteObservationsVec d.1 d.2.1 d.2.2 p.srcHist p.destHist condHist p.step
  let sp ← constructJointSpaces s
  let h2 ← hConstruct (.arr2 sp.marginal2)
  let h1 ← hConstruct (.arr2 sp.marginal1)
  let hj ← hConstruct (.arr2 sp.joint)
  let hd ← hConstruct (.arr2 sp.destPast)
  combineH est [h2, h1] [hj, hd]

/-- `conditional_transfer_entropy(source, dest, cond=, approach="renyi" | "tsallis", ...)`, `transfer_entropy/renyi.py:241-247`,
`transfer_entropy/tsallis.py:241-247`, `estimators/base.py:1020-1098`: noise on the three arrays, then the embedding -/
noncomputable def expCTEVec (val : Nat → ℝ → KnnParts → ℝ → Base → Except Exc ℝ) (source dest : List (List ℝ))
    (cond : Option (List (List ℝ))) (p : TEParams) (condHist : PyArg) (propTime offset : Option PyArg) (k order : PyArg)
    (noiseX noiseY noiseZ : Option (Nat → Nat → ℝ)) (base : Base) : Except Exc ℝ := do
  let d ← cteInit source dest cond propTime offset
  expParams k order
  expStepCheck p.step
  let s ← cteObservationsVec (jitterVec noiseX d.1) (jitterVec noiseY d.2.1) (jitterVec noiseZ d.2.2)
    p.srcHist p.destHist condHist p.step
  let sp ← constructJointSpaces s
  entropyTE (fun a => expEntropy val a k order base) sp

end Verif
