import Verif.Model.EndToEnd
import Verif.Model.FromCounts

/-!
# Model of the local values of an estimator built by `im.estimator`

`im.estimator(*data, measure=…, approach=…, **kwargs).local_vals()`: name dispatch and keyword binding as for the value
(`Model/EndToEnd.lean`), then `Estimator.local_vals` (`estimators/base.py:130-169`), which evaluates the global value first, or
`EntropyEstimator.local_vals` (`estimators/base.py:342-364`), which refuses two data.

Simplification: outside the fragment of `Model/EndToEnd.lean` the model says nothing (`none`).  The warning about a mean that differs from
the global value (`estimators/base.py:150-168`) changes nothing that is returned and is not modelled.
-/

namespace Verif

/-- `Estimator.local_vals`, `estimators/base.py:143-149`: an exception of the global value passes through, a value that is not finite
does not stop the evaluation -/
def afterGlobal {α β : Type} (g : Except Exc α) (l : Except Exc β) : Except Exc β :=
  match g with
  | .ok _ => l
  | .error .nonFinite => l
  | .error e => .error e

/-- the local part of the generic combination: `estimators/base.py:573-577` (MI), `730-735` (CMI), `925-931` (TE), `1080-1086` (CTE) -/
noncomputable def combineLocals (est : HEst) (plus minus : List (DiscreteData Int)) : Except Exc (List ℝ) := do
  let ps ← plus.mapM est.localVals
  let s ← npSumAxis0 ps
  minus.foldlM (fun acc d => do
    let l ← est.localVals d
    npSub acc l) s

/-- `local_vals()` of an estimator whose `_calculate` is the generic combination: the array if the entropy class has local values; otherwise
`_calculate` returns a float and `_extract_local_values` (`estimators/base.py:182-197`) is not implemented -/
noncomputable def combineHLocal (est : HEst) (plus minus : List (DiscreteData Int)) : Except Exc (List ℝ) :=
  match combineLocals est plus minus with
  | .ok arr => .ok arr
  | .error e =>
    if e = .unsupportedOperation ∨ e = .theoreticalInconsistency then
      afterGlobal (combineH est plus minus) (.error .unsupportedOperation)
    else .error e

/-- `local_vals()` with `_generic_mi_from_entropy`, `estimators/base.py:518-583` (compare `genericMI`) -/
noncomputable def genericMILocal (est : HEst) (cols : List (List Int)) (offset : Option Int) : Except Exc (List ℝ) := do
  let d ← miInit cols offset
  let hs ← d.mapM (fun v => hConstruct (.arr1 v))
  let hj ← hConstruct (.tup d)
  combineHLocal est hs [hj]

/-- `local_vals()` with `_generic_cmi_from_entropy`, `estimators/base.py:669-745` (compare `genericCMI`) -/
noncomputable def genericCMILocal (est : HEst) (cols : List (List Int)) (cond : List Int) (offset : Option Int) : Except Exc (List ℝ) := do
  let dz ← cmiInit cols (some cond) offset
  let hs ← dz.1.mapM (fun v => hConstruct (.tup [v, dz.2]))
  let hj ← hConstruct (.tup (dz.1 ++ [dz.2]))
  let hz ← hConstruct (.arr1 dz.2)
  combineHLocal est hs [hj, hz]

/-- `local_vals()` with `_generic_te_from_entropy`, `estimators/base.py:846-943` (compare `genericTE`) -/
noncomputable def genericTELocal (est : HEst) (source dest : List Int) (p : TEParams) (propTime offset : Option PyArg) :
    Except Exc (List ℝ) := do
  let d ← teInit source dest propTime offset p.step
  let s ← teObservations d.1 d.2 p.srcHist p.destHist p.step {}
  let sp ← constructJointSpaces s
  let h2 ← hConstruct (.arr2 sp.marginal2)
  let h1 ← hConstruct (.arr2 sp.marginal1)
  let hj ← hConstruct (.arr2 sp.joint)
  let hd ← hConstruct (.arr2 sp.destPast)
  combineHLocal est [h2, h1] [hj, hd]

/-- `local_vals()` with `_generic_cte_from_entropy`, `estimators/base.py:1020-1098` (compare `genericCTE`) -/
noncomputable def genericCTELocal (est : HEst) (source dest : List Int) (cond : Option (List Int)) (p : TEParams) (condHist : PyArg)
    (propTime offset : Option PyArg) : Except Exc (List ℝ) := do
  let d ← cteInit source dest cond propTime offset
  let s ← cteObservations d.1 d.2.1 d.2.2 p.srcHist p.destHist condHist p.step
  let sp ← constructJointSpaces s
  let h2 ← hConstruct (.arr2 sp.marginal2)
  let h1 ← hConstruct (.arr2 sp.marginal1)
  let hj ← hConstruct (.arr2 sp.joint)
  let hd ← hConstruct (.arr2 sp.destPast)
  combineHLocal est [h2, h1] [hj, hd]

/-- `local_vals()` of the bias-corrected classes: `mutual_information/grassberger.py` and the like (compare `biasMI`) -/
noncomputable def biasMILocal (c : BiasClass) (cols : List (List Int)) (offset : Option Int) (b : Base) : Except Exc (List ℝ) := do
  let _ ← miInit cols offset
  c.check
  genericMILocal (c.est b) cols offset

/-- the same, conditional: the `…CMIEstimator` classes of `mutual_information/*.py` (compare `biasCMI`) -/
noncomputable def biasCMILocal (c : BiasClass) (cols : List (List Int)) (cond : List Int) (offset : Option Int) (b : Base) :
    Except Exc (List ℝ) := do
  let _ ← cmiInit cols (some cond) offset
  c.check
  genericCMILocal (c.est b) cols cond offset

/-- the same, `transfer_entropy/*.py` (compare `biasTE`) -/
noncomputable def biasTELocal (c : BiasClass) (source dest : List Int) (p : TEParams) (propTime offset : Option PyArg) (b : Base) :
    Except Exc (List ℝ) := do
  let _ ← teInit source dest propTime offset p.step
  c.check
  genericTELocal (c.est b) source dest p propTime offset

/-- the same, the `…CTEEstimator` classes of `transfer_entropy/*.py` (compare `biasCTE`) -/
noncomputable def biasCTELocal (c : BiasClass) (source dest : List Int) (cond : Option (List Int)) (p : TEParams) (condHist : PyArg)
    (propTime offset : Option PyArg) (b : Base) : Except Exc (List ℝ) := do
  let _ ← cteInit source dest cond propTime offset
  c.check
  genericCTELocal (c.est b) source dest cond p condHist propTime offset

/-- the same for NSB, `mutual_information/nsb.py`, `transfer_entropy/nsb.py` (compare `nsbMI`) -/
noncomputable def nsbMILocal (find : Int → Int → ℝ) (K : Option PyArg) (cols : List (List Int)) (offset : Option Int) (b : Base) :
    Except Exc (List ℝ) := do
  let _ ← miInit cols offset
  let k ← nsbCheck K
  genericMILocal (nsbH find k b) cols offset

/-- NSB, conditional: `mutual_information/nsb.py:123-166` (compare `nsbCMI`) -/
noncomputable def nsbCMILocal (find : Int → Int → ℝ) (K : Option PyArg) (cols : List (List Int)) (cond : List Int) (offset : Option Int)
    (b : Base) : Except Exc (List ℝ) := do
  let _ ← cmiInit cols (some cond) offset
  let k ← nsbCheck K
  genericCMILocal (nsbH find k b) cols cond offset

/-- NSB: `transfer_entropy/nsb.py:44-158` (compare `nsbTE`) -/
noncomputable def nsbTELocal (find : Int → Int → ℝ) (K : Option PyArg) (source dest : List Int) (p : TEParams)
    (propTime offset : Option PyArg) (b : Base) : Except Exc (List ℝ) := do
  let _ ← teInit source dest propTime offset p.step
  let k ← nsbCheck K
  genericTELocal (nsbH find k b) source dest p propTime offset

/-- NSB: `transfer_entropy/nsb.py:161-198` (compare `nsbCTE`) -/
noncomputable def nsbCTELocal (find : Int → Int → ℝ) (K : Option PyArg) (source dest : List Int) (cond : Option (List Int))
    (p : TEParams) (condHist : PyArg) (propTime offset : Option PyArg) (b : Base) : Except Exc (List ℝ) := do
  let _ ← cteInit source dest cond propTime offset
  let k ← nsbCheck K
  genericCTELocal (nsbH find k b) source dest cond p condHist propTime offset

/-- `local_vals()` of a discrete entropy class, `estimators/base.py:342-364, 143-149`: the constructor, then two data are refused, then the
global value, then the local values -/
noncomputable def discreteHLocal (simple : DiscreteData Int → Except Exc ℝ) (locals : DiscreteData Int → Except Exc (List ℝ))
    (args : List EInput) : Except Exc (List ℝ) := do
  let data ← discreteHInit args
  match data with
  | [d] => afterGlobal (simple d) (locals d)
  | [_, _] => .error .unsupportedOperation
  | _ => .error .runtimeError

/-- `local_vals()` of the Rényi and Tsallis entropy classes, `estimators/base.py:342-364, 143-149`: there are none -/
noncomputable def expEntropyLocal (val : Nat → ℝ → KnnParts → ℝ → Base → Except Exc ℝ) (args : List KArg) (k order : PyArg) (base : Base) :
    Except Exc (List ℝ) := do
  let i ← expInit args k order
  match i.1 with
  | [_, _] => .error .unsupportedOperation
  | _ => afterGlobal (expEntropy val args k order base) (.error .unsupportedOperation)

/-- `.local_vals()` of the entropy classes: `estimators/base.py:342-364` with `estimators/entropy/*.py`.  Each branch is the model of that class (compare `Est.entropy`) -/
noncomputable def Est.entropyLocal (W : World) (e : Est) : Option (Except Exc (List ℝ)) := do
  let b ← e.get "base" PyVal.toBase
  match e.cls.fam with
  | .kernel => do
    let cfg ← e.kde W
    some (kernelEntropyLocal (e.data.map PyData.toKArg) cfg b)
  | .metric => do
    let k ← e.get "k" PyVal.toArg
    let i ← e.get "ksg_id" PyVal.toInt
    let v ← e.get "noise_level" PyVal.toNum
    let p ← e.get "minkowski_p" PyVal.toPNorm
    some (open Classical in klEntropyLocal (e.data.map PyData.toKArg) { k := k, ksgId := i, noiseNegative := decide (v < 0), p := p }
      (W.noise2 v 0) b)
  | .ordinal => do
    let p ← e.ord
    some (ordEntropyLocal W.quick (e.data.map PyData.toOInput) p b)
  | .renyi => do
    let k ← e.get "k" PyVal.toArg
    let q ← e.get (expFam .renyi).2 PyVal.toArg
    some (expEntropyLocal (expFam .renyi).1 (e.data.map PyData.toKArg) k q b)
  | .tsallis => do
    let k ← e.get "k" PyVal.toArg
    let q ← e.get (expFam .tsallis).2 PyVal.toArg
    some (expEntropyLocal (expFam .tsallis).1 (e.data.map PyData.toKArg) k q b)
  | .nsb => do
    let K ← e.get "K" PyVal.toOptInt
    let xs ← e.data.mapM PyData.toEInput
    some (discreteHLocal (nsbSimple W.find K b) (fun _ => .error .theoreticalInconsistency) xs)
  | _ => do
    let c ← e.dclass
    let xs ← e.data.mapM PyData.toEInput
    some (discreteHLocal (c.simple b) (c.localVals b) xs)

/-- `.local_vals()` of the mutual-information classes: `estimators/base.py:130-169` with `estimators/mutual_information/*.py`.  Each branch is the model of that class (compare `Est.mi`) -/
noncomputable def Est.miLocals (W : World) (e : Est) : Option (Except Exc (List ℝ)) := do
  let b ← e.get "base" PyVal.toBase
  let o ← e.get "offset" PyVal.toOptInt
  match e.cls.fam with
  | .discrete => do
    let xs ← e.data.mapM PyData.toInts
    some (afterGlobal (discreteMI (.all1D xs) o b false) (discreteMILocal xs o b false))
  | .millerMadow => do
    let xs ← e.data.mapM PyData.toInts
    some (afterGlobal (discreteMI (.all1D xs) o b true) (discreteMILocal xs o b true))
  | .ordinal => do
    let xs ← e.data.mapM PyData.toSeries
    let p ← e.ord
    some (ordMILocal W.quick xs p o b)
  | .kernel => do
    let xs ← e.data.mapM PyData.toKVar
    let nm ← e.get "normalize" PyVal.toBool
    let cfg ← e.kde W
    some (kernelMILocal xs o nm cfg b)
  | .metric => do
    let xs ← e.data.mapM PyData.toKVar
    let nm ← e.get "normalize" PyVal.toBool
    let cfg ← e.ksg
    let v ← e.get "noise_level" PyVal.toNoise
    some (ksgMILocal xs o nm cfg (W.noise2 v) b)
  | .renyi => do
    let xs ← e.data.mapM PyData.toKVar
    let nm ← e.get "normalize" PyVal.toBool
    let k ← e.get "k" PyVal.toArg
    let q ← e.get (expFam .renyi).2 PyVal.toArg
    let v ← e.get "noise_level" PyVal.toNoise
    some (afterGlobal (expMI (expFam .renyi).1 xs o nm k q (W.noise2 v) b) (.error .unsupportedOperation))
  | .tsallis => do
    let xs ← e.data.mapM PyData.toKVar
    let nm ← e.get "normalize" PyVal.toBool
    let k ← e.get "k" PyVal.toArg
    let q ← e.get (expFam .tsallis).2 PyVal.toArg
    let v ← e.get "noise_level" PyVal.toNoise
    some (afterGlobal (expMI (expFam .tsallis).1 xs o nm k q (W.noise2 v) b) (.error .unsupportedOperation))
  | .nsb => do
    let nm ← e.get "normalize" PyVal.toBool
    let xs ← e.data.mapM PyData.toInts
    let K ← e.get "K" PyVal.toOptArg
    if nm then none else some (nsbMILocal W.find K xs o b)
  | _ => do
    let nm ← e.get "normalize" PyVal.toBool
    let xs ← e.data.mapM PyData.toInts
    let c ← e.bclass
    if nm then none else some (biasMILocal c xs o b)

/-- `.local_vals()` of the conditional mutual-information classes: `estimators/base.py:130-169` with `estimators/mutual_information/*.py`.  Each branch is the model of that class (compare `Est.cmi`) -/
noncomputable def Est.cmiLocals (W : World) (e : Est) : Option (Except Exc (List ℝ)) := do
  let b ← e.get "base" PyVal.toBase
  let o ← e.get "offset" PyVal.toOptInt
  let zd ← e.cond
  match e.cls.fam with
  | .discrete => do
    let xs ← e.data.mapM PyData.toInts
    let z ← zd.toInts
    some (afterGlobal (discreteCMI xs (some (.arr1 z)) o b false) (discreteCMILocal xs (some (.arr1 z)) o b false))
  | .millerMadow => do
    let xs ← e.data.mapM PyData.toInts
    let z ← zd.toInts
    some (afterGlobal (discreteCMI xs (some (.arr1 z)) o b true) (discreteCMILocal xs (some (.arr1 z)) o b true))
  | .ordinal => do
    let xs ← e.data.mapM PyData.toSeries
    let z ← zd.toSeries
    let p ← e.ord
    some (ordCMILocal W.quick xs (some z) p o b)
  | .kernel => do
    let xs ← e.data.mapM PyData.toKVar
    let z ← zd.toKVar
    let nm ← e.get "normalize" PyVal.toBool
    let cfg ← e.kde W
    some (kernelCMILocal xs (some z) o nm cfg b)
  | .metric => do
    let xs ← e.data.mapM PyData.toKVar
    let z ← zd.toKVar
    let nm ← e.get "normalize" PyVal.toBool
    let cfg ← e.ksg
    let v ← e.get "noise_level" PyVal.toNoise
    some (ksgCMILocal xs (some z) o nm cfg (W.noise2 v) (W.noiseSum v xs.length ((xs.map KVar.len).headD 0)) b)
  | .renyi => do
    let xs ← e.data.mapM PyData.toKVar
    let z ← zd.toKVar
    let nm ← e.get "normalize" PyVal.toBool
    let k ← e.get "k" PyVal.toArg
    let q ← e.get (expFam .renyi).2 PyVal.toArg
    let v ← e.get "noise_level" PyVal.toNoise
    some (afterGlobal (expCMI (expFam .renyi).1 xs (some z) o nm k q (W.noise2 v) (W.noise2 v xs.length) b) (.error .unsupportedOperation))
  | .tsallis => do
    let xs ← e.data.mapM PyData.toKVar
    let z ← zd.toKVar
    let nm ← e.get "normalize" PyVal.toBool
    let k ← e.get "k" PyVal.toArg
    let q ← e.get (expFam .tsallis).2 PyVal.toArg
    let v ← e.get "noise_level" PyVal.toNoise
    some (afterGlobal (expCMI (expFam .tsallis).1 xs (some z) o nm k q (W.noise2 v) (W.noise2 v xs.length) b) (.error .unsupportedOperation))
  | .nsb => do
    let nm ← e.get "normalize" PyVal.toBool
    let xs ← e.data.mapM PyData.toInts
    let z ← zd.toInts
    let K ← e.get "K" PyVal.toOptArg
    if nm then none else some (nsbCMILocal W.find K xs z o b)
  | _ => do
    let nm ← e.get "normalize" PyVal.toBool
    let xs ← e.data.mapM PyData.toInts
    let z ← zd.toInts
    let c ← e.bclass
    if nm then none else some (biasCMILocal c xs z o b)

/-- `.local_vals()` of the transfer-entropy classes: `estimators/base.py:130-169` with `estimators/transfer_entropy/*.py`.  Each branch is the model of that class (compare `Est.teVal`) -/
noncomputable def Est.teLocals (W : World) (e : Est) : Option (Except Exc (List ℝ)) := do
  let b ← e.get "base" PyVal.toBase
  let u ← e.get "prop_time" PyVal.toOptArg
  let o ← e.get "offset" PyVal.toOptArg
  let p ← e.te
  match e.cls.fam with
  | .discrete => do
    let d ← e.pair PyData.toInts
    some (afterGlobal (discreteTE d.1 d.2 p u o b false) (discreteTELocal d.1 d.2 p u o b false))
  | .millerMadow => do
    let d ← e.pair PyData.toInts
    some (afterGlobal (discreteTE d.1 d.2 p u o b true) (discreteTELocal d.1 d.2 p u o b true))
  | .ordinal => do
    let d ← e.pair PyData.toSeries
    let q ← e.ordTe
    some (ordTELocal W.quick d.1 d.2 q u o b)
  | .kernel => do
    let d ← e.pair PyData.toSeries
    let cfg ← e.kde W
    some (kernelTELocal d.1 d.2 p u o cfg b)
  | .metric => do
    let d ← e.pair PyData.toSeries
    let cfg ← e.ksg
    let v ← e.get "noise_level" PyVal.toNoise
    some (ksgTELocal d.1 d.2 p u o cfg (W.noise1 v 0) (W.noise1 v 1) b)
  | .renyi => do
    let d ← e.pair PyData.toSeries
    let k ← e.get "k" PyVal.toArg
    let q ← e.get (expFam .renyi).2 PyVal.toArg
    let v ← e.get "noise_level" PyVal.toNoise
    some (afterGlobal (expTE (expFam .renyi).1 d.1 d.2 p u o k q (W.noise1 v 0) (W.noise1 v 1) b) (.error .unsupportedOperation))
  | .tsallis => do
    let d ← e.pair PyData.toSeries
    let k ← e.get "k" PyVal.toArg
    let q ← e.get (expFam .tsallis).2 PyVal.toArg
    let v ← e.get "noise_level" PyVal.toNoise
    some (afterGlobal (expTE (expFam .tsallis).1 d.1 d.2 p u o k q (W.noise1 v 0) (W.noise1 v 1) b) (.error .unsupportedOperation))
  | .nsb => do
    let d ← e.pair PyData.toInts
    let K ← e.get "K" PyVal.toOptArg
    some (nsbTELocal W.find K d.1 d.2 p u o b)
  | _ => do
    let d ← e.pair PyData.toInts
    let c ← e.bclass
    some (biasTELocal c d.1 d.2 p u o b)

/-- `.local_vals()` of the conditional transfer-entropy classes: `estimators/base.py:130-169` with `estimators/transfer_entropy/*.py`.  Each branch is the model of that class (compare `Est.cteVal`) -/
noncomputable def Est.cteLocals (W : World) (e : Est) : Option (Except Exc (List ℝ)) := do
  let b ← e.get "base" PyVal.toBase
  let u ← e.get "prop_time" PyVal.toOptArg
  let o ← e.get "offset" PyVal.toOptArg
  let p ← e.te
  let m ← e.get "cond_hist_len" PyVal.toArg
  let zd ← e.cond
  match e.cls.fam with
  | .discrete => do
    let d ← e.pair PyData.toInts
    let z ← zd.toInts
    some (afterGlobal (discreteCTE d.1 d.2 (some z) p m u o b false) (discreteCTELocal d.1 d.2 (some z) p m u o b false))
  | .millerMadow => do
    let d ← e.pair PyData.toInts
    let z ← zd.toInts
    some (afterGlobal (discreteCTE d.1 d.2 (some z) p m u o b true) (discreteCTELocal d.1 d.2 (some z) p m u o b true))
  | .ordinal => do
    let d ← e.pair PyData.toSeries
    let z ← zd.toSeries
    let q ← e.ordTe
    some (ordCTELocal W.quick d.1 d.2 (some z) { q with condHist := m } u o b)
  | .kernel => do
    let d ← e.pair PyData.toSeries
    let z ← zd.toSeries
    let cfg ← e.kde W
    some (kernelCTELocal d.1 d.2 (some z) p m u o cfg b)
  | .metric => do
    let d ← e.pair PyData.toSeries
    let z ← zd.toSeries
    let cfg ← e.ksg
    let v ← e.get "noise_level" PyVal.toNoise
    some (ksgCTELocal d.1 d.2 (some z) p m u o cfg (W.noise1 v 0) (W.noise1 v 1) (W.noise1 v 2) b)
  | .renyi => do
    let d ← e.pair PyData.toSeries
    let z ← zd.toSeries
    let k ← e.get "k" PyVal.toArg
    let q ← e.get (expFam .renyi).2 PyVal.toArg
    let v ← e.get "noise_level" PyVal.toNoise
    some (afterGlobal (expCTE (expFam .renyi).1 d.1 d.2 (some z) p m u o k q (W.noise1 v 0) (W.noise1 v 1) (W.noise1 v 2) b) (.error .unsupportedOperation))
  | .tsallis => do
    let d ← e.pair PyData.toSeries
    let z ← zd.toSeries
    let k ← e.get "k" PyVal.toArg
    let q ← e.get (expFam .tsallis).2 PyVal.toArg
    let v ← e.get "noise_level" PyVal.toNoise
    some (afterGlobal (expCTE (expFam .tsallis).1 d.1 d.2 (some z) p m u o k q (W.noise1 v 0) (W.noise1 v 1) (W.noise1 v 2) b) (.error .unsupportedOperation))
  | .nsb => do
    let d ← e.pair PyData.toInts
    let z ← zd.toInts
    let K ← e.get "K" PyVal.toOptArg
    some (nsbCTELocal W.find K d.1 d.2 (some z) p m u o b)
  | _ => do
    let d ← e.pair PyData.toInts
    let z ← zd.toInts
    let c ← e.bclass
    some (biasCTELocal c d.1 d.2 (some z) p m u o b)

/-- `.local_vals()`, `estimators/base.py:130-169, 342-364` -/
noncomputable def Est.locals (W : World) (e : Est) : Option (Except Exc (List ℝ)) :=
  match e.cls.kind with
  | .h => e.entropyLocal W
  | .mi => e.miLocals W
  | .cmi => e.cmiLocals W
  | .te => e.teLocals W
  | .cte => e.cteLocals W

/-- `im.estimator(*data, cond=…, measure=…, approach=…, **kwargs).local_vals()`, `estimators/functional.py:578-787` with
`estimators/base.py:130-169, 342-364`; `none`: outside the modelled fragment -/
noncomputable def imLocal (W : World) (data : List PyData) (c : Option PyData) (measure : PyName) (approach : PyName) (kw : Kw) :
    Option (Except Exc (List ℝ)) :=
  match callEstimator W.lower PyVal.int data c measure approach kw with
  | .error x => some (.error x)
  | .ok call =>
    match buildEst W call with
    | .error x => some (.error x)
    | .ok e => e.locals W

end Verif
