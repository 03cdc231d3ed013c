import Verif.Model.Base
import Verif.Model.Data
import Mathlib.Data.List.Lex
import Mathlib.Data.Int.Order.Basic

/-!
# Model of the entropy estimator base classes and of the plug-in (discrete) estimator

Symbols are integers (a NumPy integer array); every other symbol type is an injective
relabelling of integers.
-/

namespace Verif

/-- One positional data argument as the entropy estimators see it:
a 1-D array-like, a 2-D array (list of rows), a tuple of 1-D array-likes (a joint variable),
or something that is not array-like (a string, a number, a tuple containing such). -/
inductive EInput
  | arr1 (xs : List Int)
  | arr2 (rows : List (List Int))
  | tup (cols : List (List Int))
  | other

/-- `numpy.column_stack` of 1-D columns: row `t` collects entry `t` of every column. NumPy raises
ValueError for no columns or for columns of different length. -/
def columnStack (cols : List (List Int)) : Except Exc (List (List Int)) :=
  match cols with
  | [] => .error .valueError
  | c :: cs =>
    if cs.all (fun d => decide (d.length = c.length)) then
      .ok ((List.range c.length).map (fun t => (c :: cs).map (fun d => d.getD t 0)))
    else .error .valueError

/-- Input of `reduce_joint_space`: a Python list, a NumPy array with 1, 2 or another number of
dimensions, or a tuple of 1-D arrays (a generator is first turned into a tuple). -/
inductive RInput
  | pyList
  | arr1 (xs : List Int)
  | arr2 (rows : List (List Int))
  | arrOther
  | tup (cols : List (List Int))

/-- `reduce_joint_space`, `infomeasure/estimators/utils/ordinal.py:152-209`.
`unique(axis=0, return_inverse=True)[1]` sorts the distinct rows lexicographically and returns the
index of every row among them. -/
def reduceJointSpace (d : RInput) : Except Exc (List Int) :=
  match d with
  | .pyList => .error .valueError
  | .arr1 xs => .ok xs
  | .arr2 rows => .ok ((npInverse rows).map Int.ofNat)
  | .tup cols => (columnStack cols).map (fun rows => (npInverse rows).map Int.ofNat)
  | .arrOther => .error .valueError

/-- `EntropyEstimator.__init__`, `infomeasure/estimators/base.py:282-328`: argument validation.
Returns the data tuple unchanged. -/
def entropyInit (args : List EInput) : Except Exc (List EInput) :=
  match args with
  | [] => .error .valueError
  | [a] =>
    match a with
    | .other => .error .valueError
    | .tup cols =>
      if cols.all (fun d => decide (d.length = (cols.headD []).length)) then .ok [a]
      else .error .valueError
    | _ => .ok [a]
  | [a, b] =>
    match a, b with
    | .arr1 _, .arr1 _ | .arr1 _, .arr2 _ | .arr2 _, .arr1 _ | .arr2 _, .arr2 _ => .ok [a, b]
    | _, _ => .error .valueError
  | _ => .error .valueError

/-- `DiscreteHEstimator._reduce_space` for one variable, `infomeasure/estimators/base.py:1270-1283`. -/
def reduceVar (a : EInput) : Except Exc (List Int) :=
  match a with
  | .arr1 xs => .ok xs
  | .arr2 rows => reduceJointSpace (.arr2 rows)
  | .tup cols => reduceJointSpace (.tup cols)
  | .other => .error .valueError

/-- `DiscreteHEstimator.__init__` for raw data, `infomeasure/estimators/base.py:1146-1159`
(the float warning of `_check_data` has no effect on results and is not modelled).  The constructor looks
at `args[0]` before the number of arguments is checked, so no argument is an IndexError. -/
noncomputable def discreteHInit (args : List EInput) : Except Exc (List (DiscreteData Int)) :=
  match args with
  | [] => .error .indexError
  | a :: rest => do
    let vars ← entropyInit (a :: rest)
    vars.mapM (fun v => do
      let xs ← reduceVar v
      DiscreteData.fromData xs)

/-- `EntropyEstimator._calculate`, `infomeasure/estimators/base.py:366-388`, for discrete
estimators: one datum → `simple`, two data → `cross`. -/
noncomputable def entropyDispatch (simple : DiscreteData Int → Except Exc ℝ)
    (cross : DiscreteData Int → DiscreteData Int → Except Exc ℝ)
    (data : List (DiscreteData Int)) : Except Exc ℝ :=
  match data with
  | [d] => simple d
  | [p, q] => cross p q
  | _ => .error .runtimeError

/-- `DiscreteEntropyEstimator._simple_entropy`, `infomeasure/estimators/entropy/discrete.py:66-76`. -/
noncomputable def discreteSimple {α : Type} (base : Base) (d : DiscreteData α) : Except Exc ℝ := do
  let terms ← d.probabilities.mapM (fun p => do
    let l ← logBase base p
    pure (p * l))
  pure (- terms.sum)

/-- `DiscreteEntropyEstimator._extract_local_values`,
`infomeasure/estimators/entropy/discrete.py:83-93`. -/
noncomputable def discreteLocal {α : Type} [DecidableEq α] (base : Base) (d : DiscreteData α) :
    Except Exc (List ℝ) := do
  let data ← match d.data with
    | some xs => pure xs
    | none => .error .typeError   -- iterating over `None`
  let p ← data.mapM (dictGet d.distributionDict)
  let l ← p.mapM (logBase base)
  pure (l.map (fun v => - v))

/-- `list(set(uniq_p).intersection(set(uniq_q)))`, `infomeasure/estimators/entropy/discrete.py:109`.
A Python set is iterated in an arbitrary order; here: the order of the first argument. -/
def commonSupport {α : Type} [DecidableEq α] (p q : List α) : List α :=
  p.dedup.filter (fun v => decide (v ∈ q))

/-- `DiscreteEntropyEstimator._cross_entropy`, `infomeasure/estimators/entropy/discrete.py:95-113`. -/
noncomputable def discreteCross {α : Type} [DecidableEq α] (base : Base) (p q : DiscreteData α) :
    Except Exc ℝ :=
  let common := commonSupport p.uniq q.uniq
  if common.length = 0 then .ok 0
  else do
    let terms ← common.mapM (fun v => do
      let pv ← dictGet p.distributionDict v
      let qv ← dictGet q.distributionDict v
      let l ← logBase base qv
      pure (pv * l))
    pure (- terms.sum)

/-- `entropy(*data, approach="discrete", base=base)` = `DiscreteEntropyEstimator(...).result()`:
constructor, then dispatch. -/
noncomputable def discreteEntropy (args : List EInput) (base : Base) : Except Exc ℝ := do
  let data ← discreteHInit args
  entropyDispatch (discreteSimple base) (discreteCross base) data

/-- `estimator(x, measure="entropy", approach="discrete", base=base).local_vals()` for one
argument, `infomeasure/estimators/base.py:342-364` (two arguments: cross-entropy, unsupported). -/
noncomputable def discreteEntropyLocal (args : List EInput) (base : Base) :
    Except Exc (List ℝ) := do
  let data ← discreteHInit args
  match data with
  | [d] => discreteLocal base d
  | _ => .error .unsupportedOperation

end Verif
