import Verif.Model.EndToEnd
import Verif.Model.VecTE
import Verif.Model.BiasMIVec

/-!
# Model of the public functions for two-dimensional arrays and joint conditions

`Model/EndToEnd.lean` evaluates the transfer entropies for one-dimensional series and the discrete information measures for
one-dimensional integer arrays; everything else is an arbitrary function `World.other`.  Here that function is given for
two-dimensional arrays (a series of vectors): the same dispatch and keyword binding, and the estimators of `Model/VecTE.lean`.
-/

namespace Verif

/-- the argument as a series of real vectors, `estimators/base.py:827-828, 1007-1009`: a 1-D array has one-component vectors -/
def PyData.toRows : PyData → Option (List (List ℝ))
  | .ints xs => some ((asReals xs).map (fun x => [x]))
  | .reals xs => some (xs.map (fun x => [x]))
  | .mat a => some a.rows
  | .imat c rows => some (asRealArr c rows).rows
  | _ => none

/-- the argument as a series of integer vectors, `estimators/base.py:827-828, 1007-1009` -/
def PyData.toIntRows : PyData → Option (List (List Int))
  | .ints xs => some (xs.map (fun x => [x]))
  | .imat _ rows => some rows
  | _ => none

/-- the condition of the discrete conditional transfer entropies, `transfer_entropy/discrete.py:99-100` -/
def PyData.toCondSeries : PyData → Option CondSeries
  | .ints xs => some (.one xs)
  | .imat _ rows => some (.rows true rows)
  | .intTup cols => some (.tup cols)
  | _ => none

/-- the condition of the discrete conditional mutual informations, `mutual_information/discrete.py:67-76` -/
def PyData.toCondArg : PyData → Option CondArg
  | .ints xs => some (.arr1 xs)
  | .imat _ rows => some (.arr2 rows)
  | .intTup cols => some (.tup cols)
  | _ => none

/-- `XTEEstimator(source, dest, …).global_val()` of a bias-corrected class for vector-valued series: base constructor, parameter checks,
`_calculate`, as `biasTE` (`transfer_entropy/grassberger.py:43-108` and the like) -/
noncomputable def biasTEVec (c : BiasClass) (source dest : List (List Int)) (p : TEParams)
    (propTime offset : Option PyArg) (b : Base) : Except Exc ℝ := do
  let _ ← teInit source dest propTime offset p.step
  c.check
  genericTEVec (c.est b) source dest p propTime offset

/-- the same for the conditional transfer entropy, as `biasCTE` -/
noncomputable def biasCTEVec (c : BiasClass) (source dest : List (List Int)) (cond : Option (List (List Int)))
    (p : TEParams) (condHist : PyArg) (propTime offset : Option PyArg) (b : Base) : Except Exc ℝ := do
  let _ ← cteInit source dest cond propTime offset
  c.check
  genericCTEVec (c.est b) source dest cond p condHist propTime offset

/-- NSB, `transfer_entropy/nsb.py:44-114, 161-198` -/
noncomputable def nsbTEVec (find : Int → Int → ℝ) (K : Option PyArg) (source dest : List (List Int)) (p : TEParams)
    (propTime offset : Option PyArg) (b : Base) : Except Exc ℝ := do
  let _ ← teInit source dest propTime offset p.step
  let k ← nsbCheck K
  genericTEVec (nsbH find k b) source dest p propTime offset

/-- NSB, conditional, `transfer_entropy/nsb.py:44-114, 161-198` -/
noncomputable def nsbCTEVec (find : Int → Int → ℝ) (K : Option PyArg) (source dest : List (List Int))
    (cond : Option (List (List Int))) (p : TEParams) (condHist : PyArg) (propTime offset : Option PyArg) (b : Base) :
    Except Exc ℝ := do
  let _ ← cteInit source dest cond propTime offset
  let k ← nsbCheck K
  genericCTEVec (nsbH find k b) source dest cond p condHist propTime offset

/-- a check of the ordinal classes: `not issubdtype(type(embedding_dim), integer) or embedding_dim < 0`,
`transfer_entropy/ordinal.py:146-147` -/
def dimCheck (d : PyArg) : Except Exc Unit :=
  match d with
  | .int n => if n < 0 then .error .valueError else .ok ()
  | _ => .error .valueError

/-- `OrdinalTEEstimator` for a two-dimensional source or target, `transfer_entropy/ordinal.py:115-156`: the base constructor, the check of
`embedding_dim`, then the TypeError for the number of dimensions -/
noncomputable def ordTEVec (source dest : List (List ℝ)) (p : OrdTEParams) (propTime offset : Option PyArg) : Except Exc ℝ := do
  let _ ← teInit source dest propTime offset p.te.step
  dimCheck p.dim
  .error .typeError

/-- `OrdinalCTEEstimator` for a two-dimensional argument, `transfer_entropy/ordinal.py:126-156`: the number of dimensions of the condition
(`condTwo`) is checked first -/
noncomputable def ordCTEVec (condTwo : Bool) (source dest cond : List (List ℝ)) (p : OrdTEParams) (propTime offset : Option PyArg) : Except Exc ℝ := do
  let _ ← cteInit source dest (some cond) propTime offset
  if condTwo then .error .typeError
  else do
    dimCheck p.dim
    .error .typeError

/-- the array has two dimensions (`var.ndim > 1`), `transfer_entropy/ordinal.py:141, 152` -/
def PyData.twoD : PyData → Bool
  | .mat _ => true
  | .imat _ _ => true
  | _ => false

/-- `.result()` of the transfer-entropy classes for series of vectors, `estimators/transfer_entropy/*.py`: as `Est.teVal` -/
noncomputable def Est.teVec (W : World) (e : Est) : Option (Except Exc ℝ) := do
  let b ← e.get "base" PyVal.toBase
  let u ← e.get "prop_time" PyVal.toOptArg
  let o ← e.get "offset" PyVal.toOptArg
  let p ← e.te
  match e.cls.fam with
  | .discrete => do
    let d ← e.pair PyData.toIntRows
    some (discreteTEVec d.1 d.2 p u o b false)
  | .millerMadow => do
    let d ← e.pair PyData.toIntRows
    some (discreteTEVec d.1 d.2 p u o b true)
  | .ordinal => do
    let d ← e.pair PyData.toRows
    let q ← e.ordTe
    match e.pair PyData.toSeries with
    | some s => some (ordTE W.quick s.1 s.2 q u o b)
    | none => some (ordTEVec d.1 d.2 q u o)
  | .kernel => do
    let d ← e.pair PyData.toRows
    let cfg ← e.kde W
    some (kernelTEVec d.1 d.2 p u o cfg b)
  | .metric => do
    let d ← e.pair PyData.toRows
    let cfg ← e.ksg
    let v ← e.get "noise_level" PyVal.toNoise
    some (ksgTEVec d.1 d.2 p u o cfg (W.noise2 v 0) (W.noise2 v 1) b)
  | .renyi => do
    let d ← e.pair PyData.toRows
    let k ← e.get "k" PyVal.toArg
    let q ← e.get (expFam .renyi).2 PyVal.toArg
    let v ← e.get "noise_level" PyVal.toNoise
    some (expTEVec (expFam .renyi).1 d.1 d.2 p u o k q (W.noise2 v 0) (W.noise2 v 1) b)
  | .tsallis => do
    let d ← e.pair PyData.toRows
    let k ← e.get "k" PyVal.toArg
    let q ← e.get (expFam .tsallis).2 PyVal.toArg
    let v ← e.get "noise_level" PyVal.toNoise
    some (expTEVec (expFam .tsallis).1 d.1 d.2 p u o k q (W.noise2 v 0) (W.noise2 v 1) b)
  | .nsb => do
    let d ← e.pair PyData.toIntRows
    let K ← e.get "K" PyVal.toOptArg
    some (nsbTEVec W.find K d.1 d.2 p u o b)
  | _ => do
    let d ← e.pair PyData.toIntRows
    let c ← e.bclass
    some (biasTEVec c d.1 d.2 p u o b)

/-- `.result()` of the conditional transfer-entropy classes for series of vectors, `estimators/transfer_entropy/*.py`: as `Est.cteVal` -/
noncomputable def Est.cteVec (W : World) (e : Est) : Option (Except Exc ℝ) := do
  let b ← e.get "base" PyVal.toBase
  let u ← e.get "prop_time" PyVal.toOptArg
  let o ← e.get "offset" PyVal.toOptArg
  let p ← e.te
  let m ← e.get "cond_hist_len" PyVal.toArg
  let zd ← e.cond
  match e.cls.fam with
  | .discrete => do
    let d ← e.pair PyData.toIntRows
    let z ← zd.toCondSeries
    some (discreteCTEOf d.1 d.2 z p m u o b false)
  | .millerMadow => do
    let d ← e.pair PyData.toIntRows
    let z ← zd.toCondSeries
    some (discreteCTEOf d.1 d.2 z p m u o b true)
  | .ordinal => do
    let d ← e.pair PyData.toRows
    let zr ← zd.toRows
    let q ← e.ordTe
    match e.pair PyData.toSeries, zd.toSeries with
    | some s, some z => some (ordCTE W.quick s.1 s.2 (some z) { q with condHist := m } u o b)
    | _, _ => some (ordCTEVec zd.twoD d.1 d.2 zr q u o)
  | .kernel => do
    let d ← e.pair PyData.toRows
    let z ← zd.toRows
    let cfg ← e.kde W
    some (kernelCTEVec d.1 d.2 (some z) p m u o cfg b)
  | .metric => do
    let d ← e.pair PyData.toRows
    let z ← zd.toRows
    let cfg ← e.ksg
    let v ← e.get "noise_level" PyVal.toNoise
    some (ksgCTEVec d.1 d.2 (some z) p m u o cfg (W.noise2 v 0) (W.noise2 v 1) (W.noise2 v 2) b)
  | .renyi => do
    let d ← e.pair PyData.toRows
    let z ← zd.toRows
    let k ← e.get "k" PyVal.toArg
    let q ← e.get (expFam .renyi).2 PyVal.toArg
    let v ← e.get "noise_level" PyVal.toNoise
    some (expCTEVec (expFam .renyi).1 d.1 d.2 (some z) p m u o k q (W.noise2 v 0) (W.noise2 v 1) (W.noise2 v 2) b)
  | .tsallis => do
    let d ← e.pair PyData.toRows
    let z ← zd.toRows
    let k ← e.get "k" PyVal.toArg
    let q ← e.get (expFam .tsallis).2 PyVal.toArg
    let v ← e.get "noise_level" PyVal.toNoise
    some (expCTEVec (expFam .tsallis).1 d.1 d.2 (some z) p m u o k q (W.noise2 v 0) (W.noise2 v 1) (W.noise2 v 2) b)
  | .nsb => do
    let d ← e.pair PyData.toIntRows
    let z ← zd.toIntRows
    let K ← e.get "K" PyVal.toOptArg
    some (nsbCTEVec W.find K d.1 d.2 (some z) p m u o b)
  | _ => do
    let d ← e.pair PyData.toIntRows
    let z ← zd.toIntRows
    let c ← e.bclass
    some (biasCTEVec c d.1 d.2 (some z) p m u o b)

/-- the argument as a 2-D integer array, `discrete_interaction_information.py:26-78` -/
def PyData.toMatRows : PyData → Option (List (List Int))
  | .imat _ rows => some rows
  | _ => none

/-- `.result()` of the discrete mutual-information classes for 2-D arrays, `mutual_information/discrete.py:92-100`,
`mutual_information/miller_madow.py:110-120`: all variables two-dimensional, or of different dimensions (checks of the base constructor, then
the TypeError of the counting, `discrete_interaction_information.py:209-214`, unless no sample is left) -/
noncomputable def Est.miVec (e : Est) : Option (Except Exc ℝ) := do
  let b ← e.get "base" PyVal.toBase
  let o ← e.get "offset" PyVal.toOptInt
  let mm ← match e.cls.fam with
    | .discrete => some false
    | .millerMadow => some true
    | _ => none
  match e.data.mapM PyData.toInts, e.data.mapM PyData.toMatRows with
  | some xs, _ => some (discreteMI (.all1D xs) o b mm)
  | none, some xs => some (discreteMI (.all2D xs) o b mm)
  | none, none => do
    let xs ← e.data.mapM PyData.toIntRows
    some (do
      let d ← miInit xs o
      if (d.headD []).length = 0 then .ok 0 else discreteMI .mixed o b mm)

/-- the argument as an integer array of one or two dimensions, `estimators/base.py:492, 655` -/
def PyData.toIArr : PyData → Option IArr
  | .ints xs => some ⟨false, xs.map (fun x => [x])⟩
  | .imat _ rows => some ⟨true, rows⟩
  | _ => none

/-- `asarray(cond)`, `estimators/base.py:656`: a tuple of series becomes a two-dimensional array whose rows are the series; series of different
lengths are a ValueError -/
def PyData.toCondIArr : PyData → Option (Except Exc IArr)
  | .ints xs => some (.ok ⟨false, xs.map (fun x => [x])⟩)
  | .imat _ rows => some (.ok ⟨true, rows⟩)
  | .intTup cols =>
    some (if cols.all (fun c => decide (c.length = (cols.headD []).length)) then .ok ⟨true, cols⟩ else .error .valueError)
  | _ => none

/-- `.result()` of the bias-corrected mutual-information classes for arrays of one or two dimensions, `mutual_information/*.py`; `normalize=True` only
with an array of two dimensions (ValueError) -/
noncomputable def Est.miArr (W : World) (e : Est) : Option (Except Exc ℝ) := do
  let b ← e.get "base" PyVal.toBase
  let o ← e.get "offset" PyVal.toOptInt
  let nm ← e.get "normalize" PyVal.toBool
  let xs ← e.data.mapM PyData.toIArr
  if nm && xs.all (fun x => !x.two) then none
  else match e.cls.fam with
  | .nsb => do
    let K ← e.get "K" PyVal.toOptArg
    some (nsbMIArr W.find K xs o nm b)
  | _ => do
    let c ← e.bclass
    some (biasMIArr c xs o nm b)

/-- the same for the conditional classes, `mutual_information/*.py`; `normalize=True` only if one of the first two arrays or the condition has two
dimensions (`estimators/base.py:659-662`) -/
noncomputable def Est.cmiArr (W : World) (e : Est) : Option (Except Exc ℝ) := do
  let b ← e.get "base" PyVal.toBase
  let o ← e.get "offset" PyVal.toOptInt
  let nm ← e.get "normalize" PyVal.toBool
  let zd ← e.cond
  let xs ← e.data.mapM PyData.toIArr
  let z ← zd.toCondIArr
  let run ← match e.cls.fam with
    | .nsb => do
      let K ← e.get "K" PyVal.toOptArg
      some (fun z => nsbCMIArr W.find K xs z o nm b)
    | _ => do
      let c ← e.bclass
      some (fun z => biasCMIArr c xs z o nm b)
  match z with
  | .error x => some (.error x)
  | .ok z => if nm && (xs.take 2 ++ [z]).all (fun x => !x.two) then none else some (run z)

/-- `.result()` of the discrete conditional mutual-information classes for series of numbers or vectors and a joint condition (tuple or 2-D array),
`mutual_information/discrete.py:67-76, 127-137`, `mutual_information/miller_madow.py:165-178`: every variable is counted by `unique(var, axis=0)`
(`discrete_interaction_information.py:397-399`), so that a number counts as the vector with that one component -/
noncomputable def Est.cmiVec (e : Est) : Option (Except Exc ℝ) := do
  let b ← e.get "base" PyVal.toBase
  let o ← e.get "offset" PyVal.toOptInt
  let mm ← match e.cls.fam with
    | .discrete => some false
    | .millerMadow => some true
    | _ => none
  let zd ← e.cond
  let z ← zd.toCondArg
  match e.data.mapM PyData.toInts with
  | some xs => some (discreteCMI xs (some z) o b mm)
  | none => do
    let xs ← e.data.mapM PyData.toIntRows
    some (discreteCMI xs (some z) o b mm)

/-- `.result()` for two-dimensional arrays and joint conditions, `estimators/base.py:101-128` -/
noncomputable def Est.vecVal (W : World) (e : Est) : Option (Except Exc ℝ) :=
  match e.cls.kind with
  | .h => none
  | .mi => match e.miVec with
    | some r => some r
    | none => e.miArr W
  | .cmi => match e.cmiVec with
    | some r => some r
    | none => e.cmiArr W
  | .te => e.teVec W
  | .cte => e.cteVec W

/-- the world in which two-dimensional arrays and joint conditions are evaluated too (`estimators/base.py:101-128`); only what is outside that
is left to `other` -/
noncomputable def World.vec (W : World) : World := { W with other := fun e => (e.vecVal W).getD (W.other e) }

end Verif
