import Verif.Model.TE
import Verif.Model.MI

/-!
# Model of kernel density estimation and of the kernel estimators

`infomeasure/estimators/utils/kde.py`, `estimators/utils/normalize.py`, `estimators/utils/array.py`,
`estimators/entropy/kernel.py`, `estimators/mutual_information/kernel.py`,
`estimators/transfer_entropy/kernel.py`.

A two-dimensional float array is its number of columns and the list of its rows; floats are real numbers.
SciPy's `KDTree.query_ball_point(at, r, p=inf, return_length=True)` is modelled by what it returns: for
every point the number of data rows within the closed maximum-norm ball.  The Gaussian density estimate is
here an arbitrary procedure that first looks at data and bandwidth (and may raise) and is then evaluated
point by point; `Model/Gauss.lean` supplies SciPy's formula and the projection of rank-deficient data.
-/

namespace Verif

/-- a two-dimensional float array -/
structure Arr where
  cols : Nat
  rows : List (List ℝ)

/-- every row has as many entries as the array has columns -/
def Arr.WF (a : Arr) : Prop := ∀ r ∈ a.rows, r.length = a.cols

/-- one positional array argument: 1-D or 2-D -/
inductive KVar
  | one (xs : List ℝ)
  | two (a : Arr)

/-- `assure_2d_data` of an array, `utils/array.py:30-35`: a 1-D array becomes a column. -/
def assure2d : KVar → Arr
  | .one xs => ⟨1, xs.map (fun x => [x])⟩
  | .two a => a

/-- `var.ndim != 1` -/
def KVar.is2d : KVar → Bool
  | .one _ => false
  | .two _ => true

/-- `len(var)` / `var.shape[0]` -/
def KVar.len : KVar → Nat
  | .one xs => xs.length
  | .two a => a.rows.length

/-- `var[start:stop]` -/
def KVar.slice (v : KVar) (start stop : Option Int) : KVar :=
  match v with
  | .one xs => .one (pySlice xs start stop)
  | .two a => .two ⟨a.cols, pySlice a.rows start stop⟩

/-- `numpy.column_stack` of two-dimensional arrays -/
def stackArrs (as : List Arr) : Except Exc Arr := do
  let rows ← concatRows (as.map Arr.rows)
  pure ⟨(as.map Arr.cols).sum, rows⟩

/-- `a[:, idx]` for non-negative column numbers -/
def Arr.sel (a : Arr) (idx : List Nat) : Arr :=
  ⟨idx.length, a.rows.map (fun r => idx.map (fun j => r.getD j 0))⟩

/-! ## Density estimation -/

/-- the kernel name: `"box"`, `"gaussian"` (with the density estimate fitted to data and bandwidth, as a
function of the point), or anything else -/
inductive Kernel
  | box
  | gaussian (fit : Arr → ℝ → Except Exc (List ℝ → ℝ))
  | unsupported

/-- maximum-norm distance of two rows is at most `r` -/
def withinBox (r : ℝ) (x y : List ℝ) : Prop := ∀ p ∈ x.zip y, |p.1 - p.2| ≤ r

open Classical in
/-- `tree.query_ball_point(x, r, p=inf, return_length=True)` for one point -/
noncomputable def ballCount (rows : List (List ℝ)) (r : ℝ) (x : List ℝ) : Nat :=
  rows.countP (fun y => decide (withinBox r x y))

/-- sizes of the sections of `numpy.array_split(a, k)` for a length-`n` axis: the first `n % k` sections
have one element more. -/
def splitSizes (n k : Nat) : List Nat :=
  List.replicate (n % k) (n / k + 1) ++ List.replicate (k - n % k) (n / k)

/-- cut a list into consecutive pieces of the given sizes -/
def cutSizes {α : Type} : List Nat → List α → List (List α)
  | [], _ => []
  | s :: ss, l => l.take s :: cutSizes ss (l.drop s)

/-- `numpy.array_split` -/
def arraySplit {α : Type} (l : List α) (k : Nat) : List (List α) := cutSizes (splitSizes l.length k) l

/-- `numpy.concatenate` of squeezed one-dimensional results: a result for a single point was squeezed to
zero dimensions, which cannot be concatenated (ValueError). -/
def concatSqueezed {β : Type} (results : List (List β)) : Except Exc (List β) :=
  if results.any (fun r => decide (r.length = 1)) then .error .valueError else .ok results.flatten

/-- `parallel_kde_evaluate`, `utils/kde.py:172-211`; `f` evaluates the density at one point, `nData` is
`data.shape[1]`.  A non-positive number of sections is a ValueError of `array_split`. -/
def parallelKde {β : Type} (f : List ℝ → β) (nData : Nat) (pts : List (List ℝ)) (workers : Int) :
    Except Exc (List β) :=
  if workers = 1 ∨ nData < 20000 then .ok (pts.map f)
  else
    let w := min workers ((max 1 (pts.length / 8000) : Nat) : Int)
    if w ≤ 0 then .error .valueError
    else concatSqueezed ((arraySplit pts w.toNat).map (fun chunk => chunk.map f))

/-- `WorkersMixin.__init__`, `estimators/mixins.py:530-536`: the number of workers the estimator stores; −1 is
replaced by the number of processors `cpu` of the machine. -/
def resolveWorkers (cpu : Nat) (workers : Int) : Int := if workers = -1 then (cpu : Int) else workers

/-- the estimator parameters `bandwidth`, `kernel`, `workers` (`workers` is the stored number, after
`resolveWorkers`) -/
structure KdeCfg where
  bandwidth : PyArg
  kernel : Kernel
  workers : Int := 1

/-- the number behind `issubdtype(type(bandwidth), number) and bandwidth > 0` -/
noncomputable def PyArg.posNumber : PyArg → Option ℝ
  | .int n => if 0 < n then some n else none
  | .num x => open Classical in if 0 < x then some x else none
  | .other => none

/-- `kde_probability_density_function`, `utils/kde.py:23-101`.  The result is one density per evaluation
point; for a single point NumPy's `squeeze` drops the axis, which the callers below account for.  (With several
workers the estimate is fitted in every worker, after splitting the points.) -/
noncomputable def kdeDensity (data : Arr) (at? : Option Arr) (cfg : KdeCfg) : Except Exc (List ℝ) :=
  match cfg.bandwidth.posNumber with
  | none => .error .valueError
  | some h =>
    if (at?.getD data).cols ≠ data.cols then .error .valueError
    else match cfg.kernel with
      | .gaussian fit =>
        match fit data h with
        | .error e => .error e
        | .ok f => parallelKde f data.rows.length (at?.getD data).rows cfg.workers
      | .box =>
        .ok ((at?.getD data).rows.map (fun x =>
          (ballCount data.rows (h / 2) x : ℝ) / (data.rows.length * h ^ data.cols)))
      | .unsupported => .error .valueError

/-- `numpy.mean` as the global value (`Estimator._calculate` returning local values): of an empty array it is `nan`. -/
noncomputable def meanOrNan (l : List ℝ) : Except Exc ℝ :=
  if l.length = 0 then .error .nonFinite else .ok (l.sum / l.length)

/-! ## Kernel entropy -/

/-- `nan`-guarded negative logarithm of one density, `entropy/kernel.py:165-169` -/
noncomputable def negLogOrZero (base : Base) (p : ℝ) : Except Exc ℝ :=
  open Classical in if p = 0 then .ok 0 else (logBase base p).map (fun l => - l)

/-- `KernelEntropyEstimator._simple_entropy`, `entropy/kernel.py:153-169`: local values.  For one sample
`log_densities` is a NumPy scalar and the item assignment of line 168 is a TypeError. -/
noncomputable def kernelSimple (cfg : KdeCfg) (base : Base) (a : Arr) : Except Exc (List ℝ) := do
  let dens ← kdeDensity a none cfg
  let ls ← dens.mapM (negLogOrZero base)
  if dens.length = 1 then .error .typeError else pure ls

/-- `KernelEntropyEstimator._cross_entropy`, `entropy/kernel.py:185-202`; `len` of a zero-dimensional array
is a TypeError, division of zero by zero is `nan`. -/
noncomputable def kernelCross (cfg : KdeCfg) (base : Base) (p q : Arr) : Except Exc ℝ := do
  let dens ← kdeDensity q (some p) cfg
  let ls ← (open Classical in dens.filter (fun d => decide (0 < d))).mapM (logBase base)
  if dens.length = 1 then .error .typeError
  else if dens.length = 0 then .error .nonFinite
  else pure (- ls.sum / dens.length)

/-- one positional argument of the entropy estimator: an array, a tuple of arrays (joint variable), or
something that is not array-like -/
inductive KArg
  | arr (v : KVar)
  | tup (vs : List KVar)
  | other

/-- `KernelEntropyEstimator(...).local_vals()` for one argument: `EntropyEstimator.__init__`
(`estimators/base.py:282-338`), `entropy/kernel.py:148-151`, `_calculate` (`base.py:366-388`) and
`_joint_entropy` (`entropy/kernel.py:171-183`). -/
noncomputable def kernelEntropyLocal (args : List KArg) (cfg : KdeCfg) (base : Base) :
    Except Exc (List ℝ) :=
  match args with
  | [.arr v] => kernelSimple cfg base (assure2d v)
  | [.tup vs] =>
    if vs.all (fun d => decide (d.len = (vs.headD (.one [])).len)) then do
      let a ← stackArrs (vs.map assure2d)
      kernelSimple cfg base a
    else .error .valueError
  | [.arr _, .arr _] => .error .unsupportedOperation
  | _ => .error .valueError

/-- `KernelEntropyEstimator(...).result()`: mean of the local values, or the cross-entropy of two
arguments. -/
noncomputable def kernelEntropy (args : List KArg) (cfg : KdeCfg) (base : Base) : Except Exc ℝ :=
  match args with
  | [.arr p, .arr q] => kernelCross cfg base (assure2d p) (assure2d q)
  | _ => do
    let ls ← kernelEntropyLocal args cfg base
    meanOrNan ls

/-! ## Normalisation -/

/-- `min` of a non-empty column -/
noncomputable def colMin (x : ℝ) (xs : List ℝ) : ℝ := xs.foldl min x
/-- `max` of a non-empty column -/
noncomputable def colMax (x : ℝ) (xs : List ℝ) : ℝ := xs.foldl max x

/-- `normalize_data_0_1` for one column, `utils/normalize.py:8-32`: the minimum of an empty array is a
ValueError, a constant column divides by zero. -/
noncomputable def normalize01 (xs : List ℝ) : Except Exc (List ℝ) :=
  match xs with
  | [] => .error .valueError
  | x :: r =>
    open Classical in
    if colMax x r - colMin x r = 0 then .error .nonFinite
    else .ok ((x :: r).map (fun v => (v - colMin x r) / (colMax x r - colMin x r)))

/-- normalise one argument of an MI estimator: only 1-D arrays (`estimators/base.py:512-515`, `659-666`) -/
noncomputable def normVar : KVar → Except Exc KVar
  | .one xs => (normalize01 xs).map KVar.one
  | .two _ => .error .valueError

/-! ## Kernel mutual information -/

/-- `MutualInformationEstimator.__init__`, `estimators/base.py:479-516`, for array arguments, including
`normalize`. -/
noncomputable def kmiInit (data : List KVar) (offset : Option Int) (normalize : Bool) :
    Except Exc (List KVar) := do
  let d ← if data.length < 2 then .error .valueError
    else if data.length > 2 ∧ ¬ (offset = some 0 ∨ offset = none) then .error .valueError
    else if data.all (fun v => decide (v.len = (data.headD (.one [])).len)) = false then
      .error .valueError
    else match offset with
      | none => .error .typeError
      | some o =>
        if o > 0 then
          .ok [(data.getD 0 (.one [])).slice none (orNone (-o)), (data.getD 1 (.one [])).slice (some o) none]
        else if o < 0 then
          .ok [(data.getD 0 (.one [])).slice (some (-o)) none, (data.getD 1 (.one [])).slice none (orNone o)]
        else .ok data
  if normalize then
    if d.any KVar.is2d then .error .valueError
    else d.mapM normVar
  else pure d

/-- `KernelMIEstimator._calculate`, `mutual_information/kernel.py:142-177`: local values. -/
noncomputable def kernelMICalc (cfg : KdeCfg) (base : Base) (vars : List Arr) : Except Exc (List ℝ) := do
  let joint ← stackArrs vars
  let dj ← kdeDensity joint none cfg
  let ds ← vars.mapM (fun v => kdeDensity v none cfg)
  (List.range dj.length).mapM (fun t =>
    logBase base (dj.getD t 0 / (ds.map (fun d => d.getD t 0)).prod))

/-- `KernelMIEstimator(...).local_vals()` -/
noncomputable def kernelMILocal (data : List KVar) (offset : Option Int) (normalize : Bool) (cfg : KdeCfg)
    (base : Base) : Except Exc (List ℝ) := do
  let d ← kmiInit data offset normalize
  kernelMICalc cfg base (d.map assure2d)

/-- `KernelMIEstimator(...).result()`; constructor `mutual_information/kernel.py:47-109` (it only stores its parameters) -/
noncomputable def kernelMI (data : List KVar) (offset : Option Int) (normalize : Bool) (cfg : KdeCfg)
    (base : Base) : Except Exc ℝ := do
  let ls ← kernelMILocal data offset normalize cfg base
  meanOrNan ls

/-- `ConditionalMutualInformationEstimator.__init__`, `estimators/base.py:638-667`, for array arguments.
Only the dimensions of the first two variables and of the condition are checked before normalising.  A
third variable with two dimensions would be normalised per column; this combination is rejected here
(simplification). -/
noncomputable def kcmiInit (data : List KVar) (cond : Option KVar) (offset : Option Int)
    (normalize : Bool) : Except Exc (List KVar × KVar) :=
  match cond with
  | none => .error .valueError
  | some z =>
    if ¬ (offset = some 0 ∨ offset = none) then .error .valueError
    else match data with
      | x :: y :: _ =>
        if x.len ≠ y.len ∨ x.len ≠ z.len then .error .valueError
        else if normalize then
          if x.is2d || y.is2d || z.is2d then .error .valueError else do
          let d ← data.mapM normVar
          let c ← normVar z
          pure (d, c)
        else pure (data, z)
      | _ => .error .indexError

/-- `KernelCMIEstimator._calculate`, `mutual_information/kernel.py:210-254`: local values.  The marginal
spaces are the columns `[i, -1]` of the stacked data. -/
noncomputable def kernelCMICalc (cfg : KdeCfg) (base : Base) (vars : List Arr) (cond : Arr) :
    Except Exc (List ℝ) := do
  let joint ← stackArrs (vars ++ [cond])
  let dj ← kdeDensity joint none cfg
  let ds ← (List.range vars.length).mapM (fun i => kdeDensity (joint.sel [i, joint.cols - 1]) none cfg)
  let dz ← kdeDensity (joint.sel [joint.cols - 1]) none cfg
  (List.range dj.length).mapM (fun t =>
    logBase base ((dj.getD t 0 * dz.getD t 0) / (ds.map (fun d => d.getD t 0)).prod))

/-- `KernelCMIEstimator(...).local_vals()` -/
noncomputable def kernelCMILocal (data : List KVar) (cond : Option KVar) (offset : Option Int)
    (normalize : Bool) (cfg : KdeCfg) (base : Base) : Except Exc (List ℝ) := do
  let dz ← kcmiInit data cond offset normalize
  kernelCMICalc cfg base (dz.1.map assure2d) (assure2d dz.2)

/-- `KernelCMIEstimator(...).result()` -/
noncomputable def kernelCMI (data : List KVar) (cond : Option KVar) (offset : Option Int)
    (normalize : Bool) (cfg : KdeCfg) (base : Base) : Except Exc ℝ := do
  let ls ← kernelCMILocal data cond offset normalize cfg base
  meanOrNan ls

/-! ## Kernel transfer entropy -/

/-- the shape of a non-empty list of rows -/
def Arr.ofRows (rows : List (List ℝ)) : Arr := ⟨(rows.headD []).length, rows⟩

/-- a non-finite logarithm is replaced by zero, `transfer_entropy/kernel.py:218`, `313` -/
def zeroIfNonFinite (v : Except Exc ℝ) : Except Exc ℝ :=
  match v with
  | .ok x => .ok x
  | .error e => if e = .nonFinite then .ok 0 else .error e

/-- the common part of `KernelTEEstimator._calculate` and `KernelCTEEstimator._calculate`,
`transfer_entropy/kernel.py:157-220`, `250-315`.  One embedded row gives NumPy scalars, whose item
assignment is a TypeError. -/
noncomputable def kernelTECalc (cfg : KdeCfg) (base : Base) (sp : TESpaces ℝ) : Except Exc (List ℝ) := do
  let pj ← kdeDensity (Arr.ofRows sp.joint) none cfg
  let pd ← kdeDensity (Arr.ofRows sp.destPast) none cfg
  let p1 ← kdeDensity (Arr.ofRows sp.marginal1) none cfg
  let p2 ← kdeDensity (Arr.ofRows sp.marginal2) none cfg
  let ls ← (List.range pj.length).mapM (fun t =>
    zeroIfNonFinite (logBase base ((pj.getD t 0 * pd.getD t 0) / (p2.getD t 0 * p1.getD t 0))))
  if pj.length = 1 then .error .typeError else pure ls

/-- `KernelTEEstimator(...).local_vals()` for one-dimensional series -/
noncomputable def kernelTELocal (source dest : List ℝ) (p : TEParams) (propTime offset : Option PyArg)
    (cfg : KdeCfg) (base : Base) (rnd : SrcRandom := {}) : Except Exc (List ℝ) := do
  let d ← teInit source dest propTime offset p.step
  let s ← teObservations d.1 d.2 p.srcHist p.destHist p.step rnd
  let sp ← constructJointSpaces s
  kernelTECalc cfg base sp

/-- `KernelTEEstimator(...).result()`; constructor `transfer_entropy/kernel.py:53-125` (it only stores its parameters) -/
noncomputable def kernelTE (source dest : List ℝ) (p : TEParams) (propTime offset : Option PyArg)
    (cfg : KdeCfg) (base : Base) (rnd : SrcRandom := {}) : Except Exc ℝ := do
  let ls ← kernelTELocal source dest p propTime offset cfg base rnd
  meanOrNan ls

/-- `KernelCTEEstimator(...).local_vals()` for one-dimensional series; the permutation flags are not
passed on. -/
noncomputable def kernelCTELocal (source dest : List ℝ) (cond : Option (List ℝ)) (p : TEParams)
    (condHist : PyArg) (propTime offset : Option PyArg) (cfg : KdeCfg) (base : Base) :
    Except Exc (List ℝ) := do
  let d ← cteInit source dest cond propTime offset
  let s ← cteObservations d.1 d.2.1 d.2.2 p.srcHist p.destHist condHist p.step
  let sp ← constructJointSpaces s
  kernelTECalc cfg base sp

/-- `KernelCTEEstimator(...).result()` -/
noncomputable def kernelCTE (source dest : List ℝ) (cond : Option (List ℝ)) (p : TEParams)
    (condHist : PyArg) (propTime offset : Option PyArg) (cfg : KdeCfg) (base : Base) : Except Exc ℝ := do
  let ls ← kernelCTELocal source dest cond p condHist propTime offset cfg base
  meanOrNan ls

end Verif
