import Verif.Model.Ctor
import Verif.Model.Divergence
import Verif.Model.BiasMI
import Verif.Model.Nsb
import Verif.Model.Gauss
import Verif.Model.ExpMI
import Verif.Model.OrdinalMI

/-!
# Model of the public functions end to end

`im.entropy`, `im.mutual_information`, … (`estimators/functional.py`): name dispatch (`Model/Dispatch.lean`), keyword
binding along the constructors (`Model/Ctor.lean`), and the estimator evaluated with the parameters it was built with
(the other model files).

Simplification: what a call does when a parameter has a value of a type outside the fragment modelled elsewhere (a
boolean for `k`, a string for `base` other than `"e"`, matrices for transfer entropy, `normalize=True` for the
bias-corrected estimators, …) is an arbitrary function `other` of the built estimator.
-/

namespace Verif

/-- a positional data argument: a 1-D integer array, a 1-D float array, a 2-D float array, a 2-D integer array (number of
columns and rows), a tuple of 1-D integer arrays or of float arrays (a joint variable); the `*data` of
`estimators/functional.py:325-575` -/
inductive PyData
  | ints (xs : List Int)
  | reals (xs : List ℝ)
  | mat (a : Arr)
  | imat (c : Nat) (rows : List (List Int))
  | intTup (cols : List (List Int))
  | tup (vs : List KVar)

/-- integers as floats: `astype(float)`, `estimators/base.py:492, 656, 827-828` and the arithmetic with float arrays -/
def asReals (xs : List Int) : List ℝ := xs.map (fun z : Int => (z : ℝ))

/-- the same for a 2-D array of `c` columns -/
def asRealArr (c : Nat) (rows : List (List Int)) : Arr := ⟨c, rows.map asReals⟩

/-- the argument as the discrete entropy estimators see it, `estimators/base.py:326-332` -/
def PyData.toEInput : PyData → Option EInput
  | .ints xs => some (.arr1 xs)
  | .imat _ rows => some (.arr2 rows)
  | .intTup cols => some (.tup cols)
  | _ => none

/-- the argument as a 1-D integer array (the discrete mutual-information and transfer-entropy classes), `estimators/base.py:492, 656, 827-828` -/
def PyData.toInts : PyData → Option (List Int)
  | .ints xs => some xs
  | _ => none

/-- the argument as a 1-D series of numbers, `estimators/base.py:492, 656, 827-828` -/
def PyData.toSeries : PyData → Option (List ℝ)
  | .ints xs => some (asReals xs)
  | .reals xs => some xs
  | _ => none

/-- the argument as a continuous variable, `estimators/base.py:492, 656` -/
def PyData.toKVar : PyData → Option KVar
  | .ints xs => some (.one (asReals xs))
  | .reals xs => some (.one xs)
  | .mat a => some (.two a)
  | .imat c rows => some (.two (asRealArr c rows))
  | .intTup _ => none
  | .tup _ => none

/-- the argument as the continuous entropy estimators see it, `estimators/base.py:326-332` -/
def PyData.toKArg : PyData → KArg
  | .ints xs => .arr (.one (asReals xs))
  | .reals xs => .arr (.one xs)
  | .mat a => .arr (.two a)
  | .imat c rows => .arr (.two (asRealArr c rows))
  | .intTup cols => .tup (cols.map (fun c => .one (asReals c)))
  | .tup vs => .tup vs

/-- a 1-D array as a series, `estimators/entropy/ordinal.py:88-93` -/
def KVar.series : KVar → Option (List ℝ)
  | .one xs => some xs
  | .two _ => none

/-- the argument as the ordinal entropy estimator sees it (a tuple that is not of 1-D arrays is a TypeError there, but a tuple of arrays of
different lengths a ValueError before, `estimators/base.py:333-338`; `other` is a ValueError), `estimators/entropy/ordinal.py:64-115` -/
def PyData.toOInput : PyData → OInput ℝ
  | .ints xs => .arr1 (asReals xs)
  | .reals xs => .arr1 xs
  | .mat _ => .arrN
  | .imat _ _ => .arrN
  | .intTup cols => .tup (cols.map asReals)
  | .tup vs =>
    match vs.mapM KVar.series with
    | some cols => .tup cols
    | none => if vs.all (fun v => decide (v.len = (vs.headD (.one [])).len)) then .tupN else .other

/-! ## Parameter values

Which Python values of a keyword argument are in the modelled fragment.  These conversions model no code of their own: they read the
attribute that the constructor stored (`self.k = k`, …) in the type the model of the estimator takes. -/

/-- `base`: `"e"` or a number -/
def PyVal.toBase : PyVal → Option Base
  | .str s => if s = "e" then some .e else Option.none
  | .int n => some (.num n)
  | .num x => some (.num x)
  | _ => Option.none

/-- an argument that the code compares with numbers and types -/
def PyVal.toArg : PyVal → Option PyArg
  | .int n => some (.int n)
  | .num x => some (.num x)
  | .str _ => some .other
  | .none => some .other
  | _ => Option.none

/-- the same for parameters with a special meaning of `None` -/
def PyVal.toOptArg : PyVal → Option (Option PyArg)
  | .none => some Option.none
  | v => v.toArg.map some

/-- `None` or an integer -/
def PyVal.toOptInt : PyVal → Option (Option Int)
  | .none => some Option.none
  | .int n => some (some n)
  | _ => Option.none

/-- `None` or a non-negative integer -/
def PyVal.toOptNat : PyVal → Option (Option Nat)
  | .none => some Option.none
  | .int n => if 0 ≤ n then some (some n.toNat) else Option.none
  | _ => Option.none

/-- an integer -/
def PyVal.toInt : PyVal → Option Int
  | .int n => some n
  | _ => Option.none

/-- a non-negative integer -/
def PyVal.toNat : PyVal → Option Nat
  | .int n => if 0 ≤ n then some n.toNat else Option.none
  | _ => Option.none

/-- a number -/
def PyVal.toNum : PyVal → Option ℝ
  | .int n => some n
  | .num x => some x
  | _ => Option.none

open Classical in
/-- a non-negative number: a standard deviation -/
noncomputable def PyVal.toNoise (v : PyVal) : Option ℝ :=
  v.toNum.bind (fun x => if 0 ≤ x then some x else Option.none)

/-- a truth value -/
def PyVal.toBool : PyVal → Option Bool
  | .bool b => some b
  | _ => Option.none

/-- the concentration parameter of the Bayesian estimators -/
def PyVal.toAlpha : PyVal → Option AlphaArg
  | .int n => some (.num n)
  | .num x => some (.num x)
  | .str s => some (.str s)
  | .none => some .other
  | _ => Option.none

/-- the Minkowski parameter -/
def PyVal.toPNorm : PyVal → Option PNorm
  | .inf => some .inf
  | .int n => some (.num n)
  | .num x => some (.num x)
  | _ => Option.none

/-- the kernel name -/
noncomputable def PyVal.toKernel (eig : Eig) : PyVal → Option Kernel
  | .str s => some (if s = "box" then .box else if s = "gaussian" then gaussian eig else .unsupported)
  | .none => some .unsupported
  | _ => Option.none

/-! ## The built estimator and its result -/

/-- an estimator object: class, data, condition and parameters (the attributes set in `__init__`, `estimators/base.py:67, 282, 479, 637, 794, 979`) -/
structure Est where
  cls : EstClass
  data : List PyData
  cond : Option PyData
  par : Kw

/-- what a computation depends on besides its arguments -/
structure World where
  /-- Python's `str.lower` -/
  lower : PyLower
  /-- `Config.get("base")` when the package was imported -/
  b0 : PyVal
  /-- NumPy's default sort -/
  quick : Argsort ℝ
  /-- SciPy's eigen-decomposition -/
  eig : Eig
  /-- SciPy's root finder of the NSB estimator -/
  find : Int → Int → ℝ
  /-- number of processors -/
  cpu : Nat
  /-- the standard normal draws: array, row, column -/
  draw : Nat → Nat → Nat → ℝ
  /-- results outside the modelled fragment -/
  other : Est → Except Exc ℝ

open Classical in
/-- the noise array number `i` for standard deviation `level` (`if noise_level: …`), `entropy/kozachenko_leonenko.py:183-184, 238-240`,
`mutual_information/kraskov_stoegbauer_grassberger.py:169-172, 282-286` -/
noncomputable def World.noise2 (W : World) (level : ℝ) (i : Nat) : Option (Nat → Nat → ℝ) :=
  if level = 0 then none else some (fun t j => level * W.draw i t j)

open Classical in
/-- the same for a one-dimensional series, `transfer_entropy/kraskov_stoegbauer_grassberger.py:187-192` -/
noncomputable def World.noise1 (W : World) (level : ℝ) (i : Nat) : Option (Nat → ℝ) :=
  if level = 0 then none else some (fun t => level * W.draw i t 0)

open Classical in
/-- the noise of the condition in `KSGCMIEstimator._calculate`, `mutual_information/kraskov_stoegbauer_grassberger.py:282-286`: the statement
`cond += self.rng.normal(0, self.noise_level, cond.shape)` is inside the loop over the `n` samples, so `n` arrays are added (numbers `i`, …, `i + n - 1`) -/
noncomputable def World.noiseSum (W : World) (level : ℝ) (i n : Nat) : Option (Nat → Nat → ℝ) :=
  if level = 0 then none else some (fun t j => ((List.range n).map (fun r => level * W.draw (i + r) t j)).sum)

/-- a parameter of an estimator (`self.<name>`), converted -/
def Est.get {α : Type} (e : Est) (k : String) (conv : PyVal → Option α) : Option α := (e.par k).bind conv

/-- the discrete entropy classes, `entropy/*.py` -/
def Est.dclass (e : Est) : Option DClass :=
  match e.cls.fam with
  | .discrete => some .discrete
  | .millerMadow => some .millerMadow
  | .grassberger => some .grassberger
  | .chaoShen => some .chaoShen
  | .chaoWangJost => some .chaoWangJost
  | .shrink => some .shrink
  | .zhang => some .zhang
  | .bonachela => some .bonachela
  | .bayes => do
    let a ← e.get "alpha" PyVal.toAlpha
    let K ← e.get "K" PyVal.toOptNat
    some (.bayes a K)
  | .ansb => do
    let K ← e.get "K" PyVal.toOptInt
    some (.ansb K)
  | _ => none

/-- the bias-corrected classes of the other measures, `mutual_information/*.py`, `transfer_entropy/*.py` (their `__init__`) -/
def Est.bclass (e : Est) : Option BiasClass :=
  match e.cls.fam with
  | .grassberger => some .grassberger
  | .chaoShen => some .chaoShen
  | .chaoWangJost => some .chaoWangJost
  | .shrink => some .shrink
  | .zhang => some .zhang
  | .bonachela => some .bonachela
  | .bayes => do
    let a ← e.get "alpha" PyVal.toAlpha
    let K ← e.get "K" PyVal.toOptArg
    some (.bayes a K)
  | .ansb => do
    let u ← e.get "undersampled" PyVal.toNum
    some (.ansb u)
  | _ => none

/-- `bandwidth`, `kernel`, `workers` of the kernel classes, `entropy/kernel.py`, `mutual_information/kernel.py`, `transfer_entropy/kernel.py` (`__init__`) -/
noncomputable def Est.kde (W : World) (e : Est) : Option KdeCfg := do
  let h ← e.get "bandwidth" PyVal.toArg
  let k ← e.get "kernel" (PyVal.toKernel W.eig)
  let w ← e.get "workers" PyVal.toInt
  some { bandwidth := h, kernel := k, workers := resolveWorkers W.cpu w }

/-- `k`, `ksg_id`, `minkowski_p` of the Kraskov–Stögbauer–Grassberger classes, `mutual_information/kraskov_stoegbauer_grassberger.py:50-118`,
`transfer_entropy/kraskov_stoegbauer_grassberger.py:56-139` -/
def Est.ksg (e : Est) : Option KsgCfg := do
  let k ← e.get "k" PyVal.toNat
  let i ← e.get "ksg_id" PyVal.toInt
  let p ← e.get "minkowski_p" PyVal.toPNorm
  some { k := k, ksgId := i, p := p }

/-- `embedding_dim`, `step_size`, `stable` of the ordinal classes, `entropy/ordinal.py:64-115`, `mutual_information/ordinal.py` (`__init__`) -/
def Est.ord (e : Est) : Option OrdParams := do
  let d ← e.get "embedding_dim" PyVal.toArg
  let s ← e.get "step_size" PyVal.toArg
  let t ← e.get "stable" PyVal.toBool
  some { dim := d, step := s, stable := t }

/-- the history parameters of the transfer-entropy classes, `estimators/base.py:794-844` -/
def Est.te (e : Est) : Option TEParams := do
  let k ← e.get "src_hist_len" PyVal.toArg
  let l ← e.get "dest_hist_len" PyVal.toArg
  let s ← e.get "step_size" PyVal.toArg
  some { srcHist := k, destHist := l, step := s }

/-- the same for the ordinal transfer-entropy classes, without the history length of the condition, `transfer_entropy/ordinal.py` (`__init__`) -/
def Est.ordTe (e : Est) : Option OrdTEParams := do
  let d ← e.get "embedding_dim" PyVal.toArg
  let t ← e.te
  let s ← e.get "stable" PyVal.toBool
  some { dim := d, te := t, stable := s }

/-- the value function and the name of the order of the Rényi and Tsallis classes, `entropy/renyi.py:60-90`, `entropy/tsallis.py:58-85` -/
noncomputable def expFam : Fam → (Nat → ℝ → KnnParts → ℝ → Base → Except Exc ℝ) × String
  | .tsallis => (tsallisVal, "q")
  | _ => (renyiVal, "alpha")

/-- `.result()` of the entropy classes: `estimators/base.py:102-109` with `estimators/entropy/*.py`.  Each branch is the model of that class's `_calculate` -/
noncomputable def Est.entropy (W : World) (e : Est) : Option (Except Exc ℝ) := do
  let b ← e.get "base" PyVal.toBase
  match e.cls.fam with
  | .kernel => do
    let cfg ← e.kde W
    some (kernelEntropy (e.data.map PyData.toKArg) cfg b)
  | .metric => do
    let k ← e.get "k" PyVal.toArg
    let i ← e.get "ksg_id" PyVal.toInt
    let v ← e.get "noise_level" PyVal.toNum
    let p ← e.get "minkowski_p" PyVal.toPNorm
    some (open Classical in klEntropy (e.data.map PyData.toKArg) { k := k, ksgId := i, noiseNegative := decide (v < 0), p := p }
      (W.noise2 v 0) (W.noise2 v 1) b)
  | .ordinal => do
    let p ← e.ord
    some (ordEntropy W.quick (e.data.map PyData.toOInput) p b)
  | .renyi => do
    let k ← e.get "k" PyVal.toArg
    let q ← e.get (expFam .renyi).2 PyVal.toArg
    some (expEntropy (expFam .renyi).1 (e.data.map PyData.toKArg) k q b)
  | .tsallis => do
    let k ← e.get "k" PyVal.toArg
    let q ← e.get (expFam .tsallis).2 PyVal.toArg
    some (expEntropy (expFam .tsallis).1 (e.data.map PyData.toKArg) k q b)
  | .nsb => do
    let K ← e.get "K" PyVal.toOptInt
    let xs ← e.data.mapM PyData.toEInput
    some (nsbEntropy W.find K b xs)
  | _ => do
    let c ← e.dclass
    let xs ← e.data.mapM PyData.toEInput
    some (c.globalVal b xs)

/-- `.result()` of the mutual-information classes: the same with `estimators/mutual_information/*.py`.  Each branch is the model of that class's `_calculate` -/
noncomputable def Est.mi (W : World) (e : Est) : Option (Except Exc ℝ) := do
  let b ← e.get "base" PyVal.toBase
  let o ← e.get "offset" PyVal.toOptInt
  match e.cls.fam with
  | .discrete => do
    let xs ← e.data.mapM PyData.toInts
    some (discreteMI (.all1D xs) o b false)
  | .millerMadow => do
    let xs ← e.data.mapM PyData.toInts
    some (discreteMI (.all1D xs) o b true)
  | .ordinal => do
    let xs ← e.data.mapM PyData.toSeries
    let p ← e.ord
    some (ordMI W.quick xs p o b)
  | .kernel => do
    let xs ← e.data.mapM PyData.toKVar
    let nm ← e.get "normalize" PyVal.toBool
    let cfg ← e.kde W
    some (kernelMI xs o nm cfg b)
  | .metric => do
    let xs ← e.data.mapM PyData.toKVar
    let nm ← e.get "normalize" PyVal.toBool
    let cfg ← e.ksg
    let v ← e.get "noise_level" PyVal.toNoise
    some (ksgMI xs o nm cfg (W.noise2 v) b)
  | .renyi => do
    let xs ← e.data.mapM PyData.toKVar
    let nm ← e.get "normalize" PyVal.toBool
    let k ← e.get "k" PyVal.toArg
    let q ← e.get (expFam .renyi).2 PyVal.toArg
    let v ← e.get "noise_level" PyVal.toNoise
    some (expMI (expFam .renyi).1 xs o nm k q (W.noise2 v) b)
  | .tsallis => do
    let xs ← e.data.mapM PyData.toKVar
    let nm ← e.get "normalize" PyVal.toBool
    let k ← e.get "k" PyVal.toArg
    let q ← e.get (expFam .tsallis).2 PyVal.toArg
    let v ← e.get "noise_level" PyVal.toNoise
    some (expMI (expFam .tsallis).1 xs o nm k q (W.noise2 v) b)
  | .nsb => do
    let nm ← e.get "normalize" PyVal.toBool
    let xs ← e.data.mapM PyData.toInts
    let K ← e.get "K" PyVal.toOptArg
    if nm then none else some (nsbMI W.find K xs o b)
  | _ => do
    let nm ← e.get "normalize" PyVal.toBool
    let xs ← e.data.mapM PyData.toInts
    let c ← e.bclass
    if nm then none else some (biasMI c xs o b)

/-- `.result()` of the conditional mutual-information classes: the same with the `…CMIEstimator` classes of `estimators/mutual_information/*.py`.  Each branch is the model of that class's `_calculate` -/
noncomputable def Est.cmi (W : World) (e : Est) : Option (Except Exc ℝ) := do
  let b ← e.get "base" PyVal.toBase
  let o ← e.get "offset" PyVal.toOptInt
  let zd ← e.cond
  match e.cls.fam with
  | .discrete => do
    let xs ← e.data.mapM PyData.toInts
    let z ← zd.toInts
    some (discreteCMI xs (some (.arr1 z)) o b false)
  | .millerMadow => do
    let xs ← e.data.mapM PyData.toInts
    let z ← zd.toInts
    some (discreteCMI xs (some (.arr1 z)) o b true)
  | .ordinal => do
    let xs ← e.data.mapM PyData.toSeries
    let z ← zd.toSeries
    let p ← e.ord
    some (ordCMI W.quick xs (some z) p o b)
  | .kernel => do
    let xs ← e.data.mapM PyData.toKVar
    let z ← zd.toKVar
    let nm ← e.get "normalize" PyVal.toBool
    let cfg ← e.kde W
    some (kernelCMI xs (some z) o nm cfg b)
  | .metric => do
    let xs ← e.data.mapM PyData.toKVar
    let z ← zd.toKVar
    let nm ← e.get "normalize" PyVal.toBool
    let cfg ← e.ksg
    let v ← e.get "noise_level" PyVal.toNoise
    some (ksgCMI xs (some z) o nm cfg (W.noise2 v) (W.noiseSum v xs.length ((xs.map KVar.len).headD 0)) b)
  | .renyi => do
    let xs ← e.data.mapM PyData.toKVar
    let z ← zd.toKVar
    let nm ← e.get "normalize" PyVal.toBool
    let k ← e.get "k" PyVal.toArg
    let q ← e.get (expFam .renyi).2 PyVal.toArg
    let v ← e.get "noise_level" PyVal.toNoise
    some (expCMI (expFam .renyi).1 xs (some z) o nm k q (W.noise2 v) (W.noise2 v xs.length) b)
  | .tsallis => do
    let xs ← e.data.mapM PyData.toKVar
    let z ← zd.toKVar
    let nm ← e.get "normalize" PyVal.toBool
    let k ← e.get "k" PyVal.toArg
    let q ← e.get (expFam .tsallis).2 PyVal.toArg
    let v ← e.get "noise_level" PyVal.toNoise
    some (expCMI (expFam .tsallis).1 xs (some z) o nm k q (W.noise2 v) (W.noise2 v xs.length) b)
  | .nsb => do
    let nm ← e.get "normalize" PyVal.toBool
    let xs ← e.data.mapM PyData.toInts
    let z ← zd.toInts
    let K ← e.get "K" PyVal.toOptArg
    if nm then none else some (nsbCMI W.find K xs z o b)
  | _ => do
    let nm ← e.get "normalize" PyVal.toBool
    let xs ← e.data.mapM PyData.toInts
    let z ← zd.toInts
    let c ← e.bclass
    if nm then none else some (biasCMI c xs z o b)

/-- source and target, converted, `estimators/base.py:827-828, 1009-1010` -/
def Est.pair {α : Type} (e : Est) (conv : PyData → Option α) : Option (α × α) :=
  match e.data with
  | [x, y] => do
    let u ← conv x
    let v ← conv y
    some (u, v)
  | _ => none

/-- `.result()` of the transfer-entropy classes: the same with `estimators/transfer_entropy/*.py`.  Each branch is the model of that class's `_calculate` -/
noncomputable def Est.teVal (W : World) (e : Est) : Option (Except Exc ℝ) := do
  let b ← e.get "base" PyVal.toBase
  let u ← e.get "prop_time" PyVal.toOptArg
  let o ← e.get "offset" PyVal.toOptArg
  let p ← e.te
  match e.cls.fam with
  | .discrete => do
    let d ← e.pair PyData.toInts
    some (discreteTE d.1 d.2 p u o b false)
  | .millerMadow => do
    let d ← e.pair PyData.toInts
    some (discreteTE d.1 d.2 p u o b true)
  | .ordinal => do
    let d ← e.pair PyData.toSeries
    let q ← e.ordTe
    some (ordTE W.quick d.1 d.2 q u o b)
  | .kernel => do
    let d ← e.pair PyData.toSeries
    let cfg ← e.kde W
    some (kernelTE d.1 d.2 p u o cfg b)
  | .metric => do
    let d ← e.pair PyData.toSeries
    let cfg ← e.ksg
    let v ← e.get "noise_level" PyVal.toNoise
    some (ksgTE d.1 d.2 p u o cfg (W.noise1 v 0) (W.noise1 v 1) b)
  | .renyi => do
    let d ← e.pair PyData.toSeries
    let k ← e.get "k" PyVal.toArg
    let q ← e.get (expFam .renyi).2 PyVal.toArg
    let v ← e.get "noise_level" PyVal.toNoise
    some (expTE (expFam .renyi).1 d.1 d.2 p u o k q (W.noise1 v 0) (W.noise1 v 1) b)
  | .tsallis => do
    let d ← e.pair PyData.toSeries
    let k ← e.get "k" PyVal.toArg
    let q ← e.get (expFam .tsallis).2 PyVal.toArg
    let v ← e.get "noise_level" PyVal.toNoise
    some (expTE (expFam .tsallis).1 d.1 d.2 p u o k q (W.noise1 v 0) (W.noise1 v 1) b)
  | .nsb => do
    let d ← e.pair PyData.toInts
    let K ← e.get "K" PyVal.toOptArg
    some (nsbTE W.find K d.1 d.2 p u o b)
  | _ => do
    let d ← e.pair PyData.toInts
    let c ← e.bclass
    some (biasTE c d.1 d.2 p u o b)

/-- `.result()` of the conditional transfer-entropy classes: the same with the `…CTEEstimator` classes of `estimators/transfer_entropy/*.py`.  Each branch is the model of that class's `_calculate` -/
noncomputable def Est.cteVal (W : World) (e : Est) : Option (Except Exc ℝ) := do
  let b ← e.get "base" PyVal.toBase
  let u ← e.get "prop_time" PyVal.toOptArg
  let o ← e.get "offset" PyVal.toOptArg
  let p ← e.te
  let m ← e.get "cond_hist_len" PyVal.toArg
  let zd ← e.cond
  match e.cls.fam with
  | .discrete => do
    let d ← e.pair PyData.toInts
    let z ← zd.toInts
    some (discreteCTE d.1 d.2 (some z) p m u o b false)
  | .millerMadow => do
    let d ← e.pair PyData.toInts
    let z ← zd.toInts
    some (discreteCTE d.1 d.2 (some z) p m u o b true)
  | .ordinal => do
    let d ← e.pair PyData.toSeries
    let z ← zd.toSeries
    let q ← e.ordTe
    some (ordCTE W.quick d.1 d.2 (some z) { q with condHist := m } u o b)
  | .kernel => do
    let d ← e.pair PyData.toSeries
    let z ← zd.toSeries
    let cfg ← e.kde W
    some (kernelCTE d.1 d.2 (some z) p m u o cfg b)
  | .metric => do
    let d ← e.pair PyData.toSeries
    let z ← zd.toSeries
    let cfg ← e.ksg
    let v ← e.get "noise_level" PyVal.toNoise
    some (ksgCTE d.1 d.2 (some z) p m u o cfg (W.noise1 v 0) (W.noise1 v 1) (W.noise1 v 2) b)
  | .renyi => do
    let d ← e.pair PyData.toSeries
    let z ← zd.toSeries
    let k ← e.get "k" PyVal.toArg
    let q ← e.get (expFam .renyi).2 PyVal.toArg
    let v ← e.get "noise_level" PyVal.toNoise
    some (expCTE (expFam .renyi).1 d.1 d.2 (some z) p m u o k q (W.noise1 v 0) (W.noise1 v 1) (W.noise1 v 2) b)
  | .tsallis => do
    let d ← e.pair PyData.toSeries
    let z ← zd.toSeries
    let k ← e.get "k" PyVal.toArg
    let q ← e.get (expFam .tsallis).2 PyVal.toArg
    let v ← e.get "noise_level" PyVal.toNoise
    some (expCTE (expFam .tsallis).1 d.1 d.2 (some z) p m u o k q (W.noise1 v 0) (W.noise1 v 1) (W.noise1 v 2) b)
  | .nsb => do
    let d ← e.pair PyData.toInts
    let z ← zd.toInts
    let K ← e.get "K" PyVal.toOptArg
    some (nsbCTE W.find K d.1 d.2 (some z) p m u o b)
  | _ => do
    let d ← e.pair PyData.toInts
    let z ← zd.toInts
    let c ← e.bclass
    some (biasCTE c d.1 d.2 (some z) p m u o b)

/-- `.result()`, `estimators/base.py:101-128` -/
noncomputable def Est.result (W : World) (e : Est) : Except Exc ℝ :=
  let r := match e.cls.kind with
    | .h => e.entropy W
    | .mi => e.mi W
    | .cmi => e.cmi W
    | .te => e.teVal W
    | .cte => e.cteVal W
  r.getD (W.other e)

/-- `kwargs.get("cond")` as data, `estimators/functional.py:278-322` -/
def CondKw.toOption {D : Type} : CondKw D → Option D
  | .val z => some z
  | _ => Option.none

/-- the class call `EstimatorClass(*data, **kwargs)`, `estimators/functional.py:389-390` and the like: argument binding along the chain of
constructors -/
noncomputable def buildEst (W : World) (c : CtorCall PyData PyVal) : Except Exc Est := do
  let p ← ctorParams W.b0 c
  pure ⟨c.cls, c.data, c.cond.toOption, p⟩

/-! ## The public functions -/

section
variable (W : World) (data : List PyData) (approach : PyName) (cond : CondKw PyData) (kw : Kw)

/-- `im.entropy(*data, approach=…, **kwargs)`, `estimators/functional.py:325-390` -/
noncomputable def imEntropy : Except Exc ℝ := runCall (buildEst W) (Est.result W) (callEntropy W.lower data approach cond kw)

/-- `im.cross_entropy`, `estimators/functional.py:393-404` -/
noncomputable def imCrossEntropy : Except Exc ℝ :=
  runCall (buildEst W) (Est.result W) (callCrossEntropy W.lower data approach cond kw)

/-- `im.mutual_information`, `estimators/functional.py:407-467` -/
noncomputable def imMI : Except Exc ℝ := runCall (buildEst W) (Est.result W) (callMI W.lower data approach cond kw)

/-- `im.conditional_mutual_information`, `estimators/functional.py:470-486` -/
noncomputable def imCMI : Except Exc ℝ := runCall (buildEst W) (Est.result W) (callCMI W.lower data approach cond kw)

/-- `im.transfer_entropy`, `estimators/functional.py:489-557` -/
noncomputable def imTE : Except Exc ℝ := runCall (buildEst W) (Est.result W) (callTE W.lower data approach cond kw)

/-- `im.conditional_transfer_entropy`, `estimators/functional.py:560-575` -/
noncomputable def imCTE : Except Exc ℝ := runCall (buildEst W) (Est.result W) (callCTE W.lower data approach cond kw)

/-- `im.estimator(*data, cond=…, measure=…, approach=…, **kwargs).result()`, `estimators/functional.py:578-787` -/
noncomputable def imEstimator (c : Option PyData) (measure : PyName) : Except Exc ℝ :=
  runCall (buildEst W) (Est.result W) (callEstimator W.lower PyVal.int data c measure approach kw)

end

end Verif
