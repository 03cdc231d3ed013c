import Verif.Model.EndToEnd
import Verif.Model.Lifecycle

/-!
# Model of statistical tests end to end

`im.estimator(*data, measure=…, approach=…, **kwargs).statistical_test(n_tests, method)` for every measure and every approach: the estimator that
the factory builds (`Model/EndToEnd.lean`), what its constructor stores, what its `_calculate` computes from the stored data, and the loop of
`estimators/mixins.py` (`Model/Lifecycle.lean`).

The constructors and the computations are those of `Est.mi`, `Est.cmi`, `Est.teVal` and `Est.cteVal`, cut where `__init__` ends and
`_calculate` begins: a test calls the former once and the latter for every test value.
-/

namespace Verif

/-- the world with other standard normal draws -/
def World.withDraw (W : World) (d : Nat → Nat → Nat → ℝ) : World := { W with draw := d }

/-- the entropy combination of `_generic_mi_from_entropy` on the stored data, `estimators/base.py:518-583` -/
noncomputable def miFromEntropies (est : HEst) (d : List (List Int)) : Except Exc ℝ := do
  let hs ← d.mapM (fun v => hConstruct (.arr1 v))
  let hj ← hConstruct (.tup d)
  combineH est hs [hj]

/-- the entropy combination of `_generic_cmi_from_entropy` on the stored data, `estimators/base.py:669-745` -/
noncomputable def cmiFromEntropies (est : HEst) (d : List (List Int)) (z : List Int) : Except Exc ℝ := do
  let hs ← d.mapM (fun v => hConstruct (.tup [v, z]))
  let hj ← hConstruct (.tup (d ++ [z]))
  let hz ← hConstruct (.arr1 z)
  combineH est hs [hj, hz]

/-- the entropy combination of `_generic_te_from_entropy` on the embedding, `estimators/base.py:890-943` -/
noncomputable def teFromEntropies (est : HEst) (s : TESlices Int) : Except Exc ℝ := do
  let sp ← constructJointSpaces s
  let h2 ← hConstruct (.arr2 sp.marginal2)
  let h1 ← hConstruct (.arr2 sp.marginal1)
  let hj ← hConstruct (.arr2 sp.joint)
  let hd ← hConstruct (.arr2 sp.destPast)
  combineH est [h2, h1] [hj, hd]

/-- a (conditional) mutual-information object: `self.data` after `__init__`, and `_calculate` as a function of the current `self.data` (its scalar
result, or the mean of its array), `estimators/base.py:479-516, 637-667` -/
inductive MIObj
  | ints (data : List (List Int)) (compute : World → List (List Int) → Except Exc ℝ)
  | series (data : List (List ℝ)) (compute : World → List (List ℝ) → Except Exc ℝ)
  | arrs (data : List KVar) (compute : World → List KVar → Except Exc ℝ)

/-- the mutual-information classes: `__init__`, then `_calculate`; the same files and lines as `Est.mi`.  The ordinal class computes the symbols in
`__init__`, `mutual_information/ordinal.py:118-131`, and `_calculate` does not look at `self.data`. -/
noncomputable def Est.miObj (W : World) (e : Est) : Option (Except Exc MIObj) := do
  let b ← e.get "base" PyVal.toBase
  let o ← e.get "offset" PyVal.toOptInt
  match e.cls.fam with
  | .discrete => do
    let xs ← e.data.mapM PyData.toInts
    some (do
      let d ← miInit xs o
      pure (.ints d fun _ d => miGlobal (logBase b) (.all1D d) none))
  | .millerMadow => do
    let xs ← e.data.mapM PyData.toInts
    some (do
      let d ← miInit xs o
      pure (.ints d fun _ d => miGlobal (logBase b) (.all1D d) (some b)))
  | .ordinal => do
    let xs ← e.data.mapM PyData.toSeries
    let p ← e.ord
    some (do
      let d ← miInit xs o
      let s ← ordMIInit W.quick xs p o
      pure (.series d fun _ _ => ordMICalculate s b))
  | .kernel => do
    let xs ← e.data.mapM PyData.toKVar
    let nm ← e.get "normalize" PyVal.toBool
    let cfg ← e.kde W
    some (do
      let d ← kmiInit xs o nm
      pure (.arrs d fun _ d => do
        let ls ← kernelMICalc cfg b (d.map assure2d)
        meanOrNan ls))
  | .metric => do
    let xs ← e.data.mapM PyData.toKVar
    let nm ← e.get "normalize" PyVal.toBool
    let cfg ← e.ksg
    let v ← e.get "noise_level" PyVal.toNoise
    some (do
      let d ← kmiInit xs o nm
      ksgIdCheck cfg
      pure (.arrs d fun W d => do
        let ls ← ksgMICalc cfg b ((d.map assure2d).mapIdx (fun i a => jitter (W.noise2 v i) a))
        meanOrNan ls))
  | .renyi => do
    let xs ← e.data.mapM PyData.toKVar
    let nm ← e.get "normalize" PyVal.toBool
    let k ← e.get "k" PyVal.toArg
    let q ← e.get (expFam .renyi).2 PyVal.toArg
    let v ← e.get "noise_level" PyVal.toNoise
    some (do
      let d ← kmiInit xs o nm
      expParams k q
      pure (.arrs d fun W d => entropyMI (fun a => expEntropy (expFam .renyi).1 a k q b) (d.mapIdx (fun i a => noisyVar (W.noise2 v i) a))))
  | .tsallis => do
    let xs ← e.data.mapM PyData.toKVar
    let nm ← e.get "normalize" PyVal.toBool
    let k ← e.get "k" PyVal.toArg
    let q ← e.get (expFam .tsallis).2 PyVal.toArg
    let v ← e.get "noise_level" PyVal.toNoise
    some (do
      let d ← kmiInit xs o nm
      expParams k q
      pure (.arrs d fun W d => entropyMI (fun a => expEntropy (expFam .tsallis).1 a k q b) (d.mapIdx (fun i a => noisyVar (W.noise2 v i) a))))
  | .nsb => do
    let nm ← e.get "normalize" PyVal.toBool
    let xs ← e.data.mapM PyData.toInts
    let K ← e.get "K" PyVal.toOptArg
    if nm then none else some (do
      let d ← miInit xs o
      let k ← nsbCheck K
      pure (.ints d fun W d => miFromEntropies (nsbH W.find k b) d))
  | _ => do
    let nm ← e.get "normalize" PyVal.toBool
    let xs ← e.data.mapM PyData.toInts
    let c ← e.bclass
    if nm then none else some (do
      let d ← miInit xs o
      c.check
      pure (.ints d fun _ d => miFromEntropies (c.est b) d))

/-- the conditional mutual-information classes: `__init__`, then `_calculate`; the same files and lines as `Est.cmi`.  The condition is stored by
`__init__` and not resampled, `estimators/mixins.py:243-258`. -/
noncomputable def Est.cmiObj (W : World) (e : Est) : Option (Except Exc MIObj) := do
  let b ← e.get "base" PyVal.toBase
  let o ← e.get "offset" PyVal.toOptInt
  let zd ← e.cond
  match e.cls.fam with
  | .discrete => do
    let xs ← e.data.mapM PyData.toInts
    let z ← zd.toInts
    some (do
      let z' ← condReduce false (.arr1 z)
      let dz ← cmiInit xs (some z') o
      pure (.ints dz.1 fun _ d => cmiNdInt (logBase b) d dz.2 none))
  | .millerMadow => do
    let xs ← e.data.mapM PyData.toInts
    let z ← zd.toInts
    some (do
      let z' ← condReduce true (.arr1 z)
      let dz ← cmiInit xs (some z') o
      pure (.ints dz.1 fun _ d => cmiNdInt (logBase b) d dz.2 (some b)))
  | .ordinal => do
    let xs ← e.data.mapM PyData.toSeries
    let z ← zd.toSeries
    let p ← e.ord
    some (do
      let dz ← cmiInit xs (some z) o
      let s ← ordCMIInit W.quick xs (some z) p o
      pure (.series dz.1 fun _ _ => ordCMICalculate s b))
  | .kernel => do
    let xs ← e.data.mapM PyData.toKVar
    let z ← zd.toKVar
    let nm ← e.get "normalize" PyVal.toBool
    let cfg ← e.kde W
    some (do
      let dz ← kcmiInit xs (some z) o nm
      pure (.arrs dz.1 fun _ d => do
        let ls ← kernelCMICalc cfg b (d.map assure2d) (assure2d dz.2)
        meanOrNan ls))
  | .metric => do
    let xs ← e.data.mapM PyData.toKVar
    let z ← zd.toKVar
    let nm ← e.get "normalize" PyVal.toBool
    let cfg ← e.ksg
    let v ← e.get "noise_level" PyVal.toNoise
    some (do
      let dz ← kcmiInit xs (some z) o nm
      ksgIdCheck cfg
      pure (.arrs dz.1 fun W d => do
        let ls ← ksgCMICalc cfg b ((d.map assure2d).mapIdx (fun i a => jitter (W.noise2 v i) a))
          (jitter (W.noiseSum v d.length ((d.map KVar.len).headD 0)) (assure2d dz.2))
        meanOrNan ls))
  | .renyi => do
    let xs ← e.data.mapM PyData.toKVar
    let z ← zd.toKVar
    let nm ← e.get "normalize" PyVal.toBool
    let k ← e.get "k" PyVal.toArg
    let q ← e.get (expFam .renyi).2 PyVal.toArg
    let v ← e.get "noise_level" PyVal.toNoise
    some (do
      let dz ← kcmiInit xs (some z) o nm
      expParams k q
      pure (.arrs dz.1 fun W d => entropyCMI (fun a => expEntropy (expFam .renyi).1 a k q b)
        (d.mapIdx (fun i a => noisyVar (W.noise2 v i) a)) (noisyVar (W.noise2 v d.length) dz.2)))
  | .tsallis => do
    let xs ← e.data.mapM PyData.toKVar
    let z ← zd.toKVar
    let nm ← e.get "normalize" PyVal.toBool
    let k ← e.get "k" PyVal.toArg
    let q ← e.get (expFam .tsallis).2 PyVal.toArg
    let v ← e.get "noise_level" PyVal.toNoise
    some (do
      let dz ← kcmiInit xs (some z) o nm
      expParams k q
      pure (.arrs dz.1 fun W d => entropyCMI (fun a => expEntropy (expFam .tsallis).1 a k q b)
        (d.mapIdx (fun i a => noisyVar (W.noise2 v i) a)) (noisyVar (W.noise2 v d.length) dz.2)))
  | .nsb => do
    let nm ← e.get "normalize" PyVal.toBool
    let xs ← e.data.mapM PyData.toInts
    let z ← zd.toInts
    let K ← e.get "K" PyVal.toOptArg
    if nm then none else some (do
      let dz ← cmiInit xs (some z) o
      let k ← nsbCheck K
      pure (.ints dz.1 fun W d => cmiFromEntropies (nsbH W.find k b) d dz.2))
  | _ => do
    let nm ← e.get "normalize" PyVal.toBool
    let xs ← e.data.mapM PyData.toInts
    let z ← zd.toInts
    let c ← e.bclass
    if nm then none else some (do
      let dz ← cmiInit xs (some z) o
      c.check
      pure (.ints dz.1 fun _ d => cmiFromEntropies (c.est b) d dz.2))

/-- a transfer-entropy object: `_calculate` as a function of the draws for `permute_src` / `resample_src`; the series are stored by `__init__` and
never change, `estimators/base.py:794-844` -/
abbrev TEObj := World → SrcRandom → Except Exc ℝ

/-- the transfer-entropy classes: `__init__`, then `_calculate`; the same files and lines as `Est.teVal` -/
noncomputable def Est.teObj (W : World) (e : Est) : Option (Except Exc TEObj) := do
  let b ← e.get "base" PyVal.toBase
  let u ← e.get "prop_time" PyVal.toOptArg
  let o ← e.get "offset" PyVal.toOptArg
  let p ← e.te
  match e.cls.fam with
  | .discrete => do
    let d ← e.pair PyData.toInts
    some (do
      let d ← teInit d.1 d.2 u o p.step
      pure fun _ rnd => do
        let s ← teObservations d.1 d.2 p.srcHist p.destHist p.step rnd
        combinedTE (logBase b) s none)
  | .millerMadow => do
    let d ← e.pair PyData.toInts
    some (do
      let d ← teInit d.1 d.2 u o p.step
      pure fun _ rnd => do
        let s ← teObservations d.1 d.2 p.srcHist p.destHist p.step rnd
        combinedTE (logBase b) s (some b))
  | .ordinal => do
    let d ← e.pair PyData.toSeries
    let q ← e.ordTe
    some (do
      let d ← teInit d.1 d.2 u o q.te.step
      let ds ← ordPairChecks 0 d.1.length q.dim q.te.step
      pure fun W rnd => do
        let x ← symbolizeInt W.quick d.1 ds.1 ds.2 q.stable
        let y ← symbolizeInt W.quick d.2 ds.1 ds.2 q.stable
        let s ← teObservations x y q.te.srcHist q.te.destHist q.te.step rnd
        combinedTE (logBase b) s none)
  | .kernel => do
    let d ← e.pair PyData.toSeries
    let cfg ← e.kde W
    some (do
      let d ← teInit d.1 d.2 u o p.step
      pure fun _ rnd => do
        let s ← teObservations d.1 d.2 p.srcHist p.destHist p.step rnd
        let sp ← constructJointSpaces s
        let ls ← kernelTECalc cfg b sp
        meanOrNan ls)
  | .metric => do
    let d ← e.pair PyData.toSeries
    let cfg ← e.ksg
    let v ← e.get "noise_level" PyVal.toNoise
    some (do
      let d ← teInit d.1 d.2 u o p.step
      ksgIdCheck cfg
      pure fun W rnd => do
        let s ← teObservations (jitter1 (W.noise1 v 0) d.1) (jitter1 (W.noise1 v 1) d.2) p.srcHist p.destHist p.step rnd
        let sp ← constructJointSpaces s
        let ls ← ksgTECalc cfg b sp
        meanOrNan ls)
  | .renyi => do
    let d ← e.pair PyData.toSeries
    let k ← e.get "k" PyVal.toArg
    let q ← e.get (expFam .renyi).2 PyVal.toArg
    let v ← e.get "noise_level" PyVal.toNoise
    some (do
      let d ← teInit d.1 d.2 u o p.step
      expParams k q
      expStepCheck p.step
      pure fun W rnd => do
        let s ← teObservations (jitter1 (W.noise1 v 0) d.1) (jitter1 (W.noise1 v 1) d.2) p.srcHist p.destHist p.step rnd
        let sp ← constructJointSpaces s
        entropyTE (fun a => expEntropy (expFam .renyi).1 a k q b) sp)
  | .tsallis => do
    let d ← e.pair PyData.toSeries
    let k ← e.get "k" PyVal.toArg
    let q ← e.get (expFam .tsallis).2 PyVal.toArg
    let v ← e.get "noise_level" PyVal.toNoise
    some (do
      let d ← teInit d.1 d.2 u o p.step
      expParams k q
      expStepCheck p.step
      pure fun W rnd => do
        let s ← teObservations (jitter1 (W.noise1 v 0) d.1) (jitter1 (W.noise1 v 1) d.2) p.srcHist p.destHist p.step rnd
        let sp ← constructJointSpaces s
        entropyTE (fun a => expEntropy (expFam .tsallis).1 a k q b) sp)
  | .nsb => do
    let d ← e.pair PyData.toInts
    let K ← e.get "K" PyVal.toOptArg
    some (do
      let d ← teInit d.1 d.2 u o p.step
      let k ← nsbCheck K
      pure fun W rnd => do
        let s ← teObservations d.1 d.2 p.srcHist p.destHist p.step rnd
        teFromEntropies (nsbH W.find k b) s)
  | _ => do
    let d ← e.pair PyData.toInts
    let c ← e.bclass
    some (do
      let d ← teInit d.1 d.2 u o p.step
      c.check
      pure fun _ rnd => do
        let s ← teObservations d.1 d.2 p.srcHist p.destHist p.step rnd
        teFromEntropies (c.est b) s)

/-- a conditional transfer-entropy object: `_calculate`; no class passes `permute_src` or `resample_src` on, so it is not a function of them,
`transfer_entropy/discrete.py:192-205`, `estimators/base.py:1020-1060` -/
abbrev CTEObj := World → Except Exc ℝ

/-- the conditional transfer-entropy classes: `__init__`, then `_calculate`; the same files and lines as `Est.cteVal` -/
noncomputable def Est.cteObj (W : World) (e : Est) : Option (Except Exc CTEObj) := do
  let b ← e.get "base" PyVal.toBase
  let u ← e.get "prop_time" PyVal.toOptArg
  let o ← e.get "offset" PyVal.toOptArg
  let p ← e.te
  let m ← e.get "cond_hist_len" PyVal.toArg
  let zd ← e.cond
  match e.cls.fam with
  | .discrete => do
    let d ← e.pair PyData.toInts
    let z ← zd.toInts
    some (do
      let d ← cteInit d.1 d.2 (some z) u o
      pure fun _ => do
        let s ← cteObservations d.1 d.2.1 d.2.2 p.srcHist p.destHist m p.step
        combinedTE (logBase b) s none)
  | .millerMadow => do
    let d ← e.pair PyData.toInts
    let z ← zd.toInts
    some (do
      let d ← cteInit d.1 d.2 (some z) u o
      pure fun _ => do
        let s ← cteObservations d.1 d.2.1 d.2.2 p.srcHist p.destHist m p.step
        combinedTE (logBase b) s (some b))
  | .ordinal => do
    let d ← e.pair PyData.toSeries
    let z ← zd.toSeries
    let q ← e.ordTe
    some (do
      let d ← cteInit d.1 d.2 (some z) u o
      let ds ← ordPairChecks 0 d.1.length q.dim q.te.step
      pure fun W => do
        let x ← symbolizeInt W.quick d.1 ds.1 ds.2 q.stable
        let y ← symbolizeInt W.quick d.2.1 ds.1 ds.2 q.stable
        let z ← symbolizeInt W.quick d.2.2 ds.1 ds.2 q.stable
        let s ← cteObservations x y z q.te.srcHist q.te.destHist m q.te.step
        combinedTE (logBase b) s none)
  | .kernel => do
    let d ← e.pair PyData.toSeries
    let z ← zd.toSeries
    let cfg ← e.kde W
    some (do
      let d ← cteInit d.1 d.2 (some z) u o
      pure fun _ => do
        let s ← cteObservations d.1 d.2.1 d.2.2 p.srcHist p.destHist m p.step
        let sp ← constructJointSpaces s
        let ls ← kernelTECalc cfg b sp
        meanOrNan ls)
  | .metric => do
    let d ← e.pair PyData.toSeries
    let z ← zd.toSeries
    let cfg ← e.ksg
    let v ← e.get "noise_level" PyVal.toNoise
    some (do
      let d ← cteInit d.1 d.2 (some z) u o
      ksgIdCheck cfg
      pure fun W => do
        let s ← cteObservations (jitter1 (W.noise1 v 0) d.1) (jitter1 (W.noise1 v 1) d.2.1) (jitter1 (W.noise1 v 2) d.2.2)
          p.srcHist p.destHist m p.step
        let sp ← constructJointSpaces s
        let ls ← ksgTECalc cfg b sp
        meanOrNan ls)
  | .renyi => do
    let d ← e.pair PyData.toSeries
    let z ← zd.toSeries
    let k ← e.get "k" PyVal.toArg
    let q ← e.get (expFam .renyi).2 PyVal.toArg
    let v ← e.get "noise_level" PyVal.toNoise
    some (do
      let d ← cteInit d.1 d.2 (some z) u o
      expParams k q
      expStepCheck p.step
      pure fun W => do
        let s ← cteObservations (jitter1 (W.noise1 v 0) d.1) (jitter1 (W.noise1 v 1) d.2.1) (jitter1 (W.noise1 v 2) d.2.2)
          p.srcHist p.destHist m p.step
        let sp ← constructJointSpaces s
        entropyTE (fun a => expEntropy (expFam .renyi).1 a k q b) sp)
  | .tsallis => do
    let d ← e.pair PyData.toSeries
    let z ← zd.toSeries
    let k ← e.get "k" PyVal.toArg
    let q ← e.get (expFam .tsallis).2 PyVal.toArg
    let v ← e.get "noise_level" PyVal.toNoise
    some (do
      let d ← cteInit d.1 d.2 (some z) u o
      expParams k q
      expStepCheck p.step
      pure fun W => do
        let s ← cteObservations (jitter1 (W.noise1 v 0) d.1) (jitter1 (W.noise1 v 1) d.2.1) (jitter1 (W.noise1 v 2) d.2.2)
          p.srcHist p.destHist m p.step
        let sp ← constructJointSpaces s
        entropyTE (fun a => expEntropy (expFam .tsallis).1 a k q b) sp)
  | .nsb => do
    let d ← e.pair PyData.toInts
    let z ← zd.toInts
    let K ← e.get "K" PyVal.toOptArg
    some (do
      let d ← cteInit d.1 d.2 (some z) u o
      let k ← nsbCheck K
      pure fun W => do
        let s ← cteObservations d.1 d.2.1 d.2.2 p.srcHist p.destHist m p.step
        teFromEntropies (nsbH W.find k b) s)
  | _ => do
    let d ← e.pair PyData.toInts
    let z ← zd.toInts
    let c ← e.bclass
    some (do
      let d ← cteInit d.1 d.2 (some z) u o
      c.check
      pure fun _ => do
        let s ← cteObservations d.1 d.2.1 d.2.2 p.srcHist p.destHist m p.step
        teFromEntropies (c.est b) s)

/-! ## The test -/

/-- the random generator of an estimator (`self.rng`, `estimators/mixins.py:32-35`) with states `G`: the rows it draws, the normal deviates of a
computation that starts in a given state, and the state after such a computation; and the settings of the package -/
structure TestEnv (G : Type) where
  rng : NpRng G
  normal : G → Nat → Nat → Nat → ℝ
  next : G → G
  cfg : Settings

/-- rows of an array by number, `rng.permutation(x, axis=0)` and `rng.choice(x, axis=0)`, `estimators/mixins.py:285-291` -/
def KVar.sel (idx : List Nat) : KVar → KVar
  | .one xs => .one (selectRows xs idx)
  | .two a => .two { a with rows := selectRows a.rows idx }

/-- the same resampling for an array of one or two dimensions (`data_src.shape[0]` rows), `estimators/mixins.py:285-291` -/
def NpRng.arrResampler {G : Type} (R : NpRng G) : Resampler KVar G where
  permute x g := let r := R.perm x.len g; (x.sel r.1, r.2)
  choice x g := let r := R.choice x.len g; (x.sel r.1, r.2)

section
variable {G : Type} (E : TestEnv G) (W : World) (nT : Option PyArg) (m : Option String) (g : G)

/-- `statistical_test` of a mutual-information object, `estimators/mixins.py:86-129`; the local values are not used by a test -/
noncomputable def runMITest {D : Type} (R : Resampler D G) (data : List D) (f : World → List D → Except Exc ℝ) : Except Exc StatRes :=
  (statisticalTestMI (fun d g => ((f (W.withDraw (E.normal g)) d).map CalcRes.scalar, E.next g)) (fun _ => .error .attributeError) R E.cfg nT m
    ⟨{ data := data, rng := g }, none, none⟩).1

/-- the same with the representation of the data, `estimators/mixins.py:86-129, 260-304` -/
noncomputable def MIObj.test : MIObj → Except Exc StatRes
  | .ints d f => runMITest E W nT m g E.rng.resampler d f
  | .series d f => runMITest E W nT m g E.rng.resampler d f
  | .arrs d f => runMITest E W nT m g E.rng.arrResampler d f

/-- `statistical_test` of a transfer-entropy object, `estimators/mixins.py:86-129, 306-344` -/
noncomputable def TEObj.test (f : TEObj) : Except Exc StatRes :=
  (statisticalTestTE (fun fl g => ((f (W.withDraw (E.normal g)) (teRandom E.rng fl g)).map CalcRes.scalar, E.next g))
    (fun _ => .error .attributeError) E.cfg nT m ⟨{ rng := g }, none, none⟩).1

/-- the same of a conditional transfer-entropy object: the flags are set, but `_calculate` does not read them, `estimators/mixins.py:306-344` -/
noncomputable def CTEObj.test (f : CTEObj) : Except Exc StatRes :=
  (statisticalTestTE (fun _ g => ((f (W.withDraw (E.normal g))).map CalcRes.scalar, E.next g))
    (fun _ => .error .attributeError) E.cfg nT m ⟨{ rng := g }, none, none⟩).1

/-- `statistical_test` of a built estimator; the entropy classes do not have the method (AttributeError), `estimators/base.py:280, 438, 586, 748, 946`.
`none`: outside the modelled fragment. -/
noncomputable def Est.test (e : Est) : Option (Except Exc StatRes) :=
  match e.cls.kind with
  | .h => some (.error .attributeError)
  | .mi => (e.miObj W).map (fun r => r >>= MIObj.test E W nT m g)
  | .cmi => (e.cmiObj W).map (fun r => r >>= MIObj.test E W nT m g)
  | .te => (e.teObj W).map (fun r => r >>= TEObj.test E W nT m g)
  | .cte => (e.cteObj W).map (fun r => r >>= CTEObj.test E W nT m g)

/-- `im.estimator(*data, cond=…, measure=…, approach=…, **kwargs).statistical_test(n_tests, method)` on a generator in state `g`,
`estimators/functional.py:578-787`, `estimators/mixins.py:86-129` -/
noncomputable def imTest (data : List PyData) (c : Option PyData) (measure approach : PyName) (kw : Kw) : Option (Except Exc StatRes) :=
  match callEstimator W.lower PyVal.int data c measure approach kw with
  | .error e => some (.error e)
  | .ok call =>
    match buildEst W call with
    | .error e => some (.error e)
    | .ok e => e.test E W nT m g

end

end Verif
