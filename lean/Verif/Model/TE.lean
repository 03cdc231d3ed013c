import Verif.Model.BiasCorrected

/-!
# Model of the transfer-entropy slicing and estimator classes

`infomeasure/estimators/utils/te_slicing.py`, `estimators/utils/discrete_transfer_entropy.py`,
`estimators/base.py` (`TransferEntropyEstimator`, `ConditionalTransferEntropyEstimator`),
`estimators/transfer_entropy/{discrete,miller_madow}.py`.

Simplification: a series is a list of samples of an arbitrary type.  For multi-dimensional series the
code additionally flattens each history (`reshape(n, -1)`); all rows have the same number of features
per sample, so this only changes the shape in which the same row is stored.
-/

namespace Verif

/-- a Python value passed for an integer parameter -/
inductive PyArg
  /-- an integer (`int` or NumPy integer) -/
  | int (n : Int)
  /-- a float: compares with numbers but has no integer type (booleans are not modelled) -/
  | num (x : ℝ)
  /-- something that does not compare with numbers (`None`, a string) -/
  | other

/-- `issubdtype(type(var), integer) and var > 0` -/
def PyArg.posInt : PyArg → Bool
  | .int n => decide (0 < n)
  | _ => false

/-- the integer, for arguments that passed `posInt` -/
def PyArg.val : PyArg → Int
  | .int n => n
  | _ => 0

/-- `numpy.arange(start, stop, step)` for integers and a positive step -/
def npArange (start stop step : Int) : List Int :=
  (List.range ((stop - start + step - 1) / step).toNat).map (fun i : Nat => start + (i : Int) * step)

/-- NumPy integer indexing of one element: negative indices count from the end, anything outside is an
IndexError. -/
def npIndex {α : Type} (l : List α) (i : Int) : Except Exc α :=
  let j := if i < 0 then i + (l.length : Int) else i
  if j < 0 then .error .indexError
  else match l[j.toNat]? with
    | some a => .ok a
    | none => .error .indexError

/-- `l[indices]` for a two-dimensional index array -/
def npIndex2 {α : Type} (l : List α) (idx : List (List Int)) : Except Exc (List (List α)) :=
  idx.mapM (fun r => r.mapM (npIndex l))

/-- What the random generator does with `permute_src` / `resample_src`: `none` is `False`, `some f` is a
generator (or `True`, a fresh one) whose draw for `n` rows selects the rows `f n`. -/
structure SrcRandom where
  permute : Option (Nat → List Nat) := none
  resample : Option (Nat → List Nat) := none

/-- selecting rows of an index array by position -/
def selectRows {β : Type} [Inhabited β] (rows : List β) (sel : List Nat) : List β :=
  sel.map (fun i => rows.getD i default)

/-- history indices `base_indices[:, None] - offset_indices[::-1]`,
`te_slicing.py:187-191` (and 211-213, 393-395) -/
def histIndices (base : List Int) (hist step : Int) : List (List Int) :=
  base.map (fun i => ((npArange step ((hist + 1) * step) step).reverse).map (fun o => i - o))

/-- `_src_dest_slices`, `te_slicing.py:169-234`.  Returns future, destination history, source history
and the base indices. -/
def srcDestSlices {α : Type} (source dest : List α) (srcHist destHist step maxDelay : Int)
    (rnd : SrcRandom) :
    Except Exc (List (List α) × List (List α) × List (List α) × List Int) :=
  if rnd.permute.isSome ∧ rnd.resample.isSome then .error .valueError
  else do
    let base := npArange maxDelay dest.length step
    let idx0 := histIndices base srcHist step
    let idx1 := match rnd.permute with
      | some f => selectRows idx0 (f idx0.length)
      | none => idx0
    let idx2 := match rnd.resample with
      | some f => selectRows idx1 (f idx1.length)
      | none => idx1
    let srcH ← npIndex2 source idx2
    let destH ← npIndex2 dest (histIndices base destHist step)
    let fut ← npIndex2 dest (base.map (fun i => [i]))
    pure (fut, destH, srcH, base)

/-- the sliced data of one embedding: source history, destination history, destination future and
(conditional transfer entropy) condition history -/
structure TESlices (α : Type) where
  src : List (List α)
  dest : List (List α)
  fut : List (List α)
  cond : Option (List (List α)) := none

/-- `te_observations(..., construct_joint_spaces=False)`, `te_slicing.py:34-166`.  The comparison
`step_size > 1` of the warning comes first, so a step that does not compare with numbers is a
TypeError. -/
def teObservations {α : Type} (source dest : List α) (srcHist destHist step : PyArg)
    (rnd : SrcRandom := {}) : Except Exc (TESlices α) :=
  match step with
  | .other => .error .typeError
  | _ =>
    if [srcHist, destHist, step].all PyArg.posInt = false then .error .valueError
    else
      let maxDelay := max destHist.val srcHist.val * step.val
      if (source.length : Int) ≤ maxDelay then .error .valueError
      else do
        let s ← srcDestSlices source dest srcHist.val destHist.val step.val maxDelay rnd
        pure { src := s.2.2.1, dest := s.2.1, fut := s.1 }

/-- `cte_observations(..., construct_joint_spaces=False)`, `te_slicing.py:237-410` (the arguments are
NumPy arrays). -/
def cteObservations {α : Type} (source dest cond : List α) (srcHist destHist condHist step : PyArg)
    (rnd : SrcRandom := {}) : Except Exc (TESlices α) :=
  if [srcHist, destHist, condHist, step].all PyArg.posInt = false then .error .valueError
  else
    let maxDelay := max (max destHist.val srcHist.val) condHist.val * step.val
    if (source.length : Int) ≤ maxDelay then .error .valueError
    else do
      let s ← srcDestSlices source dest srcHist.val destHist.val step.val maxDelay rnd
      let condH ← npIndex2 cond (histIndices s.2.2.2 condHist.val step.val)
      pure { src := s.2.2.1, dest := s.2.1, fut := s.1, cond := some condH }

/-- `numpy.concatenate(arrays, axis=1)`: row-wise concatenation; different numbers of rows are a
ValueError. -/
def concatRows {α : Type} (parts : List (List (List α))) : Except Exc (List (List α)) :=
  match parts with
  | [] => .error .valueError
  | p :: ps =>
    if ps.all (fun q => decide (q.length = p.length)) then
      .ok (ps.foldl (fun acc q => List.zipWith (· ++ ·) acc q) p)
    else .error .valueError

/-- the four spaces returned by `_construct_joint_space_data` -/
structure TESpaces (α : Type) where
  joint : List (List α)
  destPast : List (List α)
  marginal1 : List (List α)
  marginal2 : List (List α)

/-- `_construct_joint_space_data`, `te_slicing.py:413-462`. -/
def constructJointSpaces {α : Type} (s : TESlices α) : Except Exc (TESpaces α) := do
  let c := s.cond.toList
  let joint ← concatRows ([s.src, s.dest, s.fut] ++ c)
  let destPast ← match s.cond with
    | none => pure s.dest
    | some z => concatRows [s.dest, z]
  let m1 ← concatRows ([s.src, s.dest] ++ c)
  let m2 ← concatRows ([s.dest, s.fut] ++ c)
  pure { joint := joint, destPast := destPast, marginal1 := m1, marginal2 := m2 }

/-! ## Estimator classes -/

/-- `TransferEntropyEstimator.__init__`, `estimators/base.py:794-844`: the offset alias, validation
and the shift by the propagation time. `none` is Python's `None`.  A slice bound that is not an integer
is a TypeError. -/
noncomputable def teInit {α : Type} (source dest : List α) (propTime offset : Option PyArg) (step : PyArg) :
    Except Exc (List α × List α) :=
  let isZero : Option PyArg → Prop := fun o => match o with
    | none => True
    | some (.int n) => n = 0
    | some (.num x) => x = 0
    | some .other => False
  open Classical in
  let merged : Except Exc (Option PyArg) :=
    if ¬ isZero offset then
      if isZero propTime then .ok offset else .error .valueError
    else .ok propTime
  match merged with
  | .error e => .error e
  | .ok pt =>
    if source.length ≠ dest.length then .error .valueError
    else match pt with
      | some (.int p) =>
        if p = 0 then .ok (source, dest)
        else match step with
          | .int s =>
            if 0 < p then .ok (pySlice source none (orNone (-p * s)), pySlice dest (some (p * s)) none)
            else .ok (pySlice source (some (-p * s)) none, pySlice dest none (orNone (p * s)))
          | _ => .error .typeError
      | _ => .error .valueError

/-- slicing parameters of a transfer-entropy estimator -/
structure TEParams where
  srcHist : PyArg := .int 1
  destHist : PyArg := .int 1
  step : PyArg := .int 1

/-- `combined_te_form`, `discrete_transfer_entropy.py:12-80`, global value, on the sliced data.
`reduce_joint_space` of the history arrays gives integer codes (the tuple of two arrays is column
stacked first). -/
noncomputable def combinedTE (lg : ℝ → Except Exc ℝ) (s : TESlices Int) (mm : Option Base) :
    Except Exc ℝ := do
  let cond ← match s.cond with
    | none => reduceJointSpace (.arr2 s.dest)
    | some z => do
      let rows ← concatRows [s.dest, z]
      reduceJointSpace (.arr2 rows)
  cmiNdInt lg [s.fut, s.src] cond mm

/-- `combined_te_form(local=True)` -/
noncomputable def combinedTELocal (lg : ℝ → Except Exc ℝ) (s : TESlices Int) (mm : Option Base) :
    Except Exc (List ℝ) := do
  let cond ← match s.cond with
    | none => reduceJointSpace (.arr2 s.dest)
    | some z => do
      let rows ← concatRows [s.dest, z]
      reduceJointSpace (.arr2 rows)
  cmiLocal lg [s.fut, s.src] cond mm

/-- `DiscreteTEEstimator` (`mm = false`) / `MillerMadowTEEstimator` (`mm = true`), global value,
`transfer_entropy/discrete.py:45-114`, `136-149`, `transfer_entropy/miller_madow.py:43-109`, `134-148`. -/
noncomputable def discreteTE (source dest : List Int) (p : TEParams) (propTime offset : Option PyArg)
    (base : Base) (mm : Bool := false) (rnd : SrcRandom := {}) : Except Exc ℝ := do
  let d ← teInit source dest propTime offset p.step
  let s ← teObservations d.1 d.2 p.srcHist p.destHist p.step rnd
  combinedTE (logBase base) s (if mm then some base else none)

/-- local values of the same estimators, `transfer_entropy/discrete.py:151-170`, `transfer_entropy/miller_madow.py:150-170` -/
noncomputable def discreteTELocal (source dest : List Int) (p : TEParams)
    (propTime offset : Option PyArg) (base : Base) (mm : Bool := false) (rnd : SrcRandom := {}) :
    Except Exc (List ℝ) := do
  let d ← teInit source dest propTime offset p.step
  let s ← teObservations d.1 d.2 p.srcHist p.destHist p.step rnd
  combinedTELocal (logBase base) s (if mm then some base else none)

/-- `_generic_te_from_entropy` (no noise), `estimators/base.py:846-943`, followed by `calculate`, for a
discrete entropy estimator class. -/
noncomputable def genericTE (est : HEst) (source dest : List Int) (p : TEParams)
    (propTime offset : Option PyArg) (rnd : SrcRandom := {}) : Except Exc ℝ := do
  let d ← teInit source dest propTime offset p.step
  let s ← teObservations d.1 d.2 p.srcHist p.destHist p.step rnd
  let sp ← constructJointSpaces s
  let h2 ← hConstruct (.arr2 sp.marginal2)
  let h1 ← hConstruct (.arr2 sp.marginal1)
  let hj ← hConstruct (.arr2 sp.joint)
  let hd ← hConstruct (.arr2 sp.destPast)
  combineH est [h2, h1] [hj, hd]

/-- `ConditionalTransferEntropyEstimator.__init__`, `estimators/base.py:979-1018` for one-dimensional
data; `none` is Python's `None`, which is not an integer. -/
noncomputable def cteInit {α : Type} (source dest : List α) (cond : Option (List α))
    (propTime offset : Option PyArg) : Except Exc (List α × List α × List α) :=
  match cond with
  | none => .error .valueError
  | some z =>
    if source.length ≠ dest.length ∨ source.length ≠ z.length then .error .valueError
    else match propTime with
      | some (.int n) =>
        let offZero : Prop := match offset with
          | none => True
          | some (.int m) => m = 0
          | some (.num x) => x = 0
          | some .other => False
        open Classical in
        if n ≠ 0 ∨ ¬ offZero then .error .valueError else .ok (source, dest, z)
      | _ => .error .valueError

/-- `DiscreteCTEEstimator` / `MillerMadowCTEEstimator`, global value, for a one-dimensional condition,
`transfer_entropy/discrete.py:173-226`, `transfer_entropy/miller_madow.py:192-228`. The slicing is called without permutation flags. -/
noncomputable def discreteCTE (source dest : List Int) (cond : Option (List Int)) (p : TEParams)
    (condHist : PyArg) (propTime offset : Option PyArg) (base : Base) (mm : Bool := false) :
    Except Exc ℝ := do
  let d ← cteInit source dest cond propTime offset
  let s ← cteObservations d.1 d.2.1 d.2.2 p.srcHist p.destHist condHist p.step
  combinedTE (logBase base) s (if mm then some base else none)

/-- local values of the same estimators, `transfer_entropy/discrete.py:207-226`, `transfer_entropy/miller_madow.py:208-228`; the
global value is computed first (`estimators/base.py`, `local_vals`) -/
noncomputable def discreteCTELocal (source dest : List Int) (cond : Option (List Int)) (p : TEParams)
    (condHist : PyArg) (propTime offset : Option PyArg) (base : Base) (mm : Bool := false) : Except Exc (List ℝ) := do
  let d ← cteInit source dest cond propTime offset
  let s ← cteObservations d.1 d.2.1 d.2.2 p.srcHist p.destHist condHist p.step
  let _ ← combinedTE (logBase base) s (if mm then some base else none)
  combinedTELocal (logBase base) s (if mm then some base else none)

/-- `_generic_cte_from_entropy` (no noise), `estimators/base.py:1020-1098`. -/
noncomputable def genericCTE (est : HEst) (source dest : List Int) (cond : Option (List Int))
    (p : TEParams) (condHist : PyArg) (propTime offset : Option PyArg) : Except Exc ℝ := do
  let d ← cteInit source dest cond propTime offset
  let s ← cteObservations d.1 d.2.1 d.2.2 p.srcHist p.destHist condHist p.step
  let sp ← constructJointSpaces s
  let h2 ← hConstruct (.arr2 sp.marginal2)
  let h1 ← hConstruct (.arr2 sp.marginal1)
  let hj ← hConstruct (.arr2 sp.joint)
  let hd ← hConstruct (.arr2 sp.destPast)
  combineH est [h2, h1] [hj, hd]

end Verif
