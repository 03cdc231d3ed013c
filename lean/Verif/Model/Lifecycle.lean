import Verif.Model.Config
import Verif.Model.TE

/-!
# Model of the estimator life cycle and of statistical testing

`infomeasure/estimators/base.py:67-169` (`Estimator`), `estimators/mixins.py`
(`StatisticalTestingMixin`, `EffectiveValueMixin`), `utils/data.py` (`StatisticalTestResult`).

An estimator object is its inner attributes `σ` (data, random generator, flags, …) and the two result
caches.  The code of a subclass is a record of its two hooks; the hooks may read and change the inner
attributes, so every method returns the new object together with a value or an exception.
-/

namespace Verif

/-- what `_calculate` can return: a one-dimensional array, an array of another dimension (its elements
are listed), a number, or anything else -/
inductive CalcRes (V : Type)
  | array1 (xs : List V)
  | arrayNd (xs : List V)
  | scalar (v : V)
  | other

/-- the subclass: `_calculate`, `_extract_local_values`, and `numpy.mean` on the values -/
structure EstCode (σ V : Type) where
  comp : σ → Except Exc (CalcRes V) × σ
  extract : σ → Except Exc (List V) × σ
  mean : List V → V

/-- an estimator object -/
structure EstObj (σ V : Type) where
  inner : σ
  resGlobal : Option V := none
  resLocal : Option (List V) := none

section
variable {σ V : Type}

/-- `Estimator.calculate`, `estimators/base.py:74-99` (logging left out) -/
def EstObj.calculate (c : EstCode σ V) (o : EstObj σ V) : Except Exc Unit × EstObj σ V :=
  match c.comp o.inner with
  | (.error e, s) => (.error e, { o with inner := s })
  | (.ok (.array1 xs), s) => (.ok (), { inner := s, resGlobal := some (c.mean xs), resLocal := some xs })
  | (.ok (.arrayNd _), s) => (.error .runtimeError, { o with inner := s })
  | (.ok (.scalar v), s) => (.ok (), { o with inner := s, resGlobal := some v })
  | (.ok .other, s) => (.error .runtimeError, { o with inner := s })

/-- `Estimator.global_val`, `estimators/base.py:115-128` -/
def EstObj.globalVal (c : EstCode σ V) (o : EstObj σ V) : Except Exc V × EstObj σ V :=
  match o.resGlobal with
  | some v => (.ok v, o)
  | none =>
    match o.calculate c with
    | (.error e, o') => (.error e, o')
    | (.ok (), o') =>
      match o'.resGlobal with
      | some v => (.ok v, o')
      | none => (.error .runtimeError, o')

/-- `Estimator.result`, `estimators/base.py:101-113` -/
def EstObj.result (c : EstCode σ V) (o : EstObj σ V) : Except Exc V × EstObj σ V := o.globalVal c

/-- `Estimator.local_vals`, `estimators/base.py:130-169`; the comparison of the mean with the global
value only produces a log message. -/
def EstObj.localVals (c : EstCode σ V) (o : EstObj σ V) : Except Exc (List V) × EstObj σ V :=
  match o.globalVal c with
  | (.error e, o') => (.error e, o')
  | (.ok _, o') =>
    match o'.resLocal with
    | some xs => (.ok xs, o')
    | none =>
      match c.extract o'.inner with
      | (.error e, s) =>
        (.error (if e = .notImplementedError then .unsupportedOperation else e), { o' with inner := s })
      | (.ok xs, s) => (.ok xs, { o' with inner := s, resLocal := some xs })

/-- `EntropyEstimator.local_vals`, `estimators/base.py:342-364`; `cross` says that more than one
variable was passed and the class itself defines the cross-entropy. -/
def EstObj.entropyLocalVals (cross : Bool) (c : EstCode σ V) (o : EstObj σ V) :
    Except Exc (List V) × EstObj σ V :=
  if cross then (.error .unsupportedOperation, o) else o.localVals c

/-- a public call on an estimator object -/
inductive Acc
  | result
  | globalVal
  | localVals
  | calculate

/-- what a call returns -/
inductive AccOut (V : Type)
  | num (v : V)
  | arr (xs : List V)
  | nothing

/-- one public call -/
def EstObj.step (c : EstCode σ V) (o : EstObj σ V) : Acc → Except Exc (AccOut V) × EstObj σ V
  | .result => let r := o.result c; (r.1.map .num, r.2)
  | .globalVal => let r := o.globalVal c; (r.1.map .num, r.2)
  | .localVals => let r := o.localVals c; (r.1.map .arr, r.2)
  | .calculate => let r := o.calculate c; (r.1.map (fun _ => .nothing), r.2)

/-- the object after a history of calls -/
def EstObj.run (c : EstCode σ V) (o : EstObj σ V) (ops : List Acc) : EstObj σ V :=
  ops.foldl (fun o op => (o.step c op).2) o

end

/-! ## Statistical testing -/

/-- `numpy.mean` of a list of numbers -/
noncomputable def npMean (l : List ℝ) : ℝ := l.sum / l.length

/-- `numpy.std(l, ddof=1)` -/
noncomputable def npStd1 (l : List ℝ) : ℝ :=
  Real.sqrt ((l.map (fun x => (x - npMean l) ^ 2)).sum / ((l.length : ℝ) - 1))

/-- `StatisticalTestResult`, `utils/data.py:131-165`; `tScore = none` is `nan` -/
structure StatRes where
  pValue : ℝ
  tScore : Option ℝ
  testValues : List ℝ
  observed : ℝ
  nullMean : ℝ
  nullStd : ℝ
  nTests : Int
  method : String

open Classical in
/-- `_statistical_test_result`, `mixins.py:179-241`, for a numeric observed value and an array of test
values -/
noncomputable def statResult (observed : ℝ) (vals : List ℝ) (n : Int) (method : String) :
    Except Exc StatRes :=
  if vals.length < 2 then .error .valueError
  else .ok {
    pValue := (vals.countP (fun v => decide (v > observed)) : ℝ) / vals.length
    tScore := if npStd1 vals > 0 then some ((observed - npMean vals) / npStd1 vals) else none
    testValues := vals
    observed := observed
    nullMean := npMean vals
    nullStd := npStd1 vals
    nTests := n
    method := method }

/-- the value of one resampled evaluation: the number itself or the mean of the local values,
`mixins.py:255-258`, `mixins.py:339-340` (`numpy.mean` of a non-numeric object is a TypeError) -/
noncomputable def testValue : CalcRes ℝ → Except Exc ℝ
  | .scalar v => .ok v
  | .array1 xs => .ok (npMean xs)
  | .arrayNd xs => .ok (npMean xs)
  | .other => .error .typeError

/-- a setting read as the `n_tests` argument: `issubdtype(bool, integer)` is False -/
noncomputable def CfgVal.asNTests : CfgVal → PyArg
  | .int n => .int n
  | .float x => .num x
  | _ => .other

/-- a setting read as the `method` argument -/
def CfgVal.asMethod : CfgVal → String
  | .str s => s
  | _ => ""

/-- `n_tests` with its default from the configuration, `mixins.py:133-134` -/
noncomputable def nTestsArg (s : Settings) : Option PyArg → Except Exc PyArg
  | some n => .ok n
  | none => (Config.get s "statistical_test_n_tests").map CfgVal.asNTests

/-- `method` with its default from the configuration, `mixins.py:135-136` -/
def methodArg (s : Settings) : Option String → Except Exc String
  | some m => .ok m
  | none => (Config.get s "statistical_test_method").map CfgVal.asMethod

/-- defaults and validation of `_statistical_test`, `mixins.py:131-150`: the number of tests, the
method -/
noncomputable def testArgs (s : Settings) (nTests : Option PyArg) (method : Option String) :
    Except Exc (Int × String) := do
  let n ← nTestsArg s nTests
  let m ← methodArg s method
  if n.posInt then pure (n.val, m) else .error .valueError

/-- the two resampling operations of a random generator with state `G` on data of type `D`:
`rng.permutation(data, axis=0)` and `rng.choice(data, size=n, replace=True, axis=0)` -/
structure Resampler (D G : Type) where
  permute : D → G → D × G
  choice : D → G → D × G

/-- inner attributes of a (conditional) mutual-information object: `data`, `original_data`, `rng` -/
structure MIInner (D G : Type) where
  data : List D
  orig : Option (List D) := none
  rng : G

/-- `_calculate` of a (conditional) mutual-information class on the current data; it may draw random
numbers (noise) -/
abbrev MICalc (D G : Type) := List D → G → Except Exc (CalcRes ℝ) × G

section MI
variable {D G : Type}

/-- `_calculate_mi_with_data_selection`, `mixins.py:243-258` -/
noncomputable def miSelection (comp : MICalc D G) (resample : D → G → D × G) (s : MIInner D G) :
    Except Exc ℝ × MIInner D G :=
  match s.orig with
  | some [x, y] =>
    let r := resample x s.rng
    let s1 : MIInner D G := { s with data := [r.1, y], rng := r.2 }
    match comp s1.data s1.rng with
    | (.error e, g) => (.error e, { s1 with rng := g })
    | (.ok v, g) => (testValue v, { s1 with rng := g })
  | some _ => (.error .valueError, s)
  | none => (.error .typeError, s)

/-- the list comprehension of `_test_mi`, `mixins.py:295-299`: an exception ends it at once -/
noncomputable def miLoop (comp : MICalc D G) (resample : D → G → D × G) :
    Nat → MIInner D G → Except Exc (List ℝ) × MIInner D G
  | 0, s => (.ok [], s)
  | n + 1, s =>
    match miSelection comp resample s with
    | (.error e, s1) => (.error e, s1)
    | (.ok v, s1) =>
      match miLoop comp resample n s1 with
      | (.error e, s2) => (.error e, s2)
      | (.ok vs, s2) => (.ok (v :: vs), s2)

/-- `_test_mi`, `mixins.py:260-304` -/
noncomputable def testMI (comp : MICalc D G) (R : Resampler D G) (n : Nat) (method : String)
    (s : MIInner D G) : Except Exc (List ℝ) × MIInner D G :=
  let s0 : MIInner D G := { s with orig := some s.data }
  if method = "permutation_test" then
    match miLoop comp R.permute n s0 with
    | (.error e, s1) => (.error e, s1)
    | (.ok vs, s1) => (.ok vs, { s1 with data := s1.orig.getD s1.data })
  else if method = "bootstrap" then
    match miLoop comp R.choice n s0 with
    | (.error e, s1) => (.error e, s1)
    | (.ok vs, s1) => (.ok vs, { s1 with data := s1.orig.getD s1.data })
  else (.error .valueError, s0)

/-- `_statistical_test` for (conditional) mutual information, `mixins.py:131-176` -/
noncomputable def statTestMI (comp : MICalc D G) (R : Resampler D G) (cfg : Settings)
    (nTests : Option PyArg) (method : Option String) (s : MIInner D G) :
    Except Exc (Int × String × List ℝ) × MIInner D G :=
  match testArgs cfg nTests method with
  | .error e => (.error e, s)
  | .ok (n, m) =>
    if s.data.length ≠ 2 then (.error .unsupportedOperation, s)
    else
      match testMI comp R n.toNat m s with
      | (.error e, s1) => (.error e, s1)
      | (.ok vs, s1) => (.ok (n, m, vs), s1)

/-- the class as seen by the base class -/
noncomputable def miCode (comp : MICalc D G) (extract : List D → Except Exc (List ℝ)) :
    EstCode (MIInner D G) ℝ where
  comp s := let r := comp s.data s.rng; (r.1, { s with rng := r.2 })
  extract s := (extract s.data, s)
  mean := npMean

/-- `statistical_test`, `mixins.py:86-129`: the observed value is evaluated after the test values -/
noncomputable def statisticalTestMI (comp : MICalc D G) (extract : List D → Except Exc (List ℝ))
    (R : Resampler D G) (cfg : Settings) (nTests : Option PyArg) (method : Option String)
    (o : EstObj (MIInner D G) ℝ) : Except Exc StatRes × EstObj (MIInner D G) ℝ :=
  match statTestMI comp R cfg nTests method o.inner with
  | (.error e, s) => (.error e, { o with inner := s })
  | (.ok (n, m, vs), s) =>
    match EstObj.globalVal (miCode comp extract) { o with inner := s } with
    | (.error e, o') => (.error e, o')
    | (.ok v, o') => (statResult v vs n m, o')

/-- `effective_val`, `mixins.py:505-517` -/
noncomputable def effectiveValMI (comp : MICalc D G) (extract : List D → Except Exc (List ℝ))
    (R : Resampler D G) (cfg : Settings) (method : Option String)
    (o : EstObj (MIInner D G) ℝ) : Except Exc ℝ × EstObj (MIInner D G) ℝ :=
  match statTestMI comp R cfg (some (.int 1)) method o.inner with
  | (.error e, s) => (.error e, { o with inner := s })
  | (.ok (_, _, vs), s) =>
    match EstObj.globalVal (miCode comp extract) { o with inner := s } with
    | (.error e, o') => (.error e, o')
    | (.ok v, o') => (.ok (v - vs.headD 0), o')

/-- a public call on an estimator with statistical testing -/
inductive TestOp
  | acc (a : Acc)
  | test (nTests : Option PyArg) (method : Option String)
  | effective (method : Option String)

/-- what such a call returns -/
inductive TestOut
  | acc (o : AccOut ℝ)
  | test (r : StatRes)
  | effective (v : ℝ)

/-- one public call on a mutual-information object -/
noncomputable def stepMI (comp : MICalc D G) (extract : List D → Except Exc (List ℝ))
    (R : Resampler D G) (cfg : Settings) (o : EstObj (MIInner D G) ℝ) :
    TestOp → Except Exc TestOut × EstObj (MIInner D G) ℝ
  | .acc a => let r := o.step (miCode comp extract) a; (r.1.map .acc, r.2)
  | .test n m => let r := statisticalTestMI comp extract R cfg n m o; (r.1.map .test, r.2)
  | .effective m => let r := effectiveValMI comp extract R cfg m o; (r.1.map .effective, r.2)

end MI

/-! ### Transfer entropy -/

/-- `permute_src` / `resample_src`: `False` or the generator, `estimators/base.py:841-842` -/
structure TEFlags where
  permute : Bool := false
  resample : Bool := false
  deriving DecidableEq

/-- inner attributes of a (conditional) transfer-entropy object that change: the two flags and `rng` -/
structure TEInner (G : Type) where
  flags : TEFlags := {}
  rng : G

/-- `_calculate` of a (conditional) transfer-entropy class, given the flags and the generator -/
abbrev TECalc (G : Type) := TEFlags → G → Except Exc (CalcRes ℝ) × G

section TE
variable {G : Type}

/-- the class as seen by the base class -/
noncomputable def teCode (comp : TECalc G) (extract : TEFlags → Except Exc (List ℝ)) :
    EstCode (TEInner G) ℝ where
  comp s := let r := comp s.flags s.rng; (r.1, { s with rng := r.2 })
  extract s := (extract s.flags, s)
  mean := npMean

/-- `[self._calculate() for _ in range(n_tests)]`, `mixins.py:338` -/
def teLoop (comp : TECalc G) : Nat → TEInner G → Except Exc (List (CalcRes ℝ)) × TEInner G
  | 0, s => (.ok [], s)
  | n + 1, s =>
    match comp s.flags s.rng with
    | (.error e, g) => (.error e, { s with rng := g })
    | (.ok v, g) =>
      match teLoop comp n { s with rng := g } with
      | (.error e, s2) => (.error e, s2)
      | (.ok vs, s2) => (.ok (v :: vs), s2)

/-- the flags a method switches on, `mixins.py:327-335` -/
def methodFlags (m : String) : Option TEFlags :=
  if m = "permutation_test" then some { permute := true, resample := false }
  else if m = "bootstrap" then some { permute := false, resample := true }
  else none

/-- `_test_te`, `mixins.py:306-344`.  Simplification: every value is averaged if it is an array, while
the code looks only at the first one (all have the same type, they come from the same function). -/
noncomputable def testTE (comp : TECalc G) (n : Nat) (method : String) (s : TEInner G) :
    Except Exc (List ℝ) × TEInner G :=
  match methodFlags method with
  | none => (.error .valueError, s)
  | some f =>
    match teLoop comp n { s with flags := f } with
    | (.error e, s1) => (.error e, s1)
    | (.ok rs, s1) =>
      match rs.mapM testValue with
      | .error e => (.error e, s1)
      | .ok vs => (.ok vs, { s1 with flags := {} })

/-- `_statistical_test` for (conditional) transfer entropy, `mixins.py:131-176` -/
noncomputable def statTestTE (comp : TECalc G) (cfg : Settings) (nTests : Option PyArg)
    (method : Option String) (s : TEInner G) : Except Exc (Int × String × List ℝ) × TEInner G :=
  match testArgs cfg nTests method with
  | .error e => (.error e, s)
  | .ok (n, m) =>
    match testTE comp n.toNat m s with
    | (.error e, s1) => (.error e, s1)
    | (.ok vs, s1) => (.ok (n, m, vs), s1)

/-- `statistical_test`, `mixins.py:86-129` -/
noncomputable def statisticalTestTE (comp : TECalc G) (extract : TEFlags → Except Exc (List ℝ))
    (cfg : Settings) (nTests : Option PyArg) (method : Option String) (o : EstObj (TEInner G) ℝ) :
    Except Exc StatRes × EstObj (TEInner G) ℝ :=
  match statTestTE comp cfg nTests method o.inner with
  | (.error e, s) => (.error e, { o with inner := s })
  | (.ok (n, m, vs), s) =>
    match EstObj.globalVal (teCode comp extract) { o with inner := s } with
    | (.error e, o') => (.error e, o')
    | (.ok v, o') => (statResult v vs n m, o')

/-- `effective_val`, `mixins.py:505-517` -/
noncomputable def effectiveValTE (comp : TECalc G) (extract : TEFlags → Except Exc (List ℝ))
    (cfg : Settings) (method : Option String) (o : EstObj (TEInner G) ℝ) :
    Except Exc ℝ × EstObj (TEInner G) ℝ :=
  match statTestTE comp cfg (some (.int 1)) method o.inner with
  | (.error e, s) => (.error e, { o with inner := s })
  | (.ok (_, _, vs), s) =>
    match EstObj.globalVal (teCode comp extract) { o with inner := s } with
    | (.error e, o') => (.error e, o')
    | (.ok v, o') => (.ok (v - vs.headD 0), o')

/-- one public call on a transfer-entropy object -/
noncomputable def stepTE (comp : TECalc G) (extract : TEFlags → Except Exc (List ℝ)) (cfg : Settings)
    (o : EstObj (TEInner G) ℝ) : TestOp → Except Exc TestOut × EstObj (TEInner G) ℝ
  | .acc a => let r := o.step (teCode comp extract) a; (r.1.map .acc, r.2)
  | .test n m => let r := statisticalTestTE comp extract cfg n m o; (r.1.map .test, r.2)
  | .effective m => let r := effectiveValTE comp extract cfg m o; (r.1.map .effective, r.2)

end TE

/-! ### Percentiles -/

/-- `numpy.percentile(values, q)` with the default linear interpolation on a non-empty array, for
`0 ≤ q ≤ 100` (otherwise ValueError); called by `StatisticalTestResult.percentile`,
`utils/data.py:167-203`. -/
noncomputable def npPercentile (vals : List ℝ) (q : ℝ) : Except Exc ℝ :=
  open Classical in
  if q < 0 ∨ 100 < q then .error .valueError
  else
    let s := vals.mergeSort (fun a b => decide (a ≤ b))
    let v : ℝ := q / 100 * ((s.length : ℝ) - 1)
    let lo := ⌊v⌋.toNat
    let hi := min (lo + 1) (s.length - 1)
    .ok (s.getD lo 0 + (s.getD hi 0 - s.getD lo 0) * (v - lo))

open Classical in
/-- `StatisticalTestResult.confidence_interval`, `utils/data.py:205-246` -/
noncomputable def confidenceInterval (vals : List ℝ) (level : ℝ) : Except Exc (ℝ × ℝ) :=
  if ¬ (0 < level ∧ level < 100) then .error .valueError
  else do
    let y := (100 - level) / 2
    let l ← npPercentile vals y
    let u ← npPercentile vals (100 - y)
    pure (l, u)

/-! ### Concrete instances -/

/-- a NumPy generator with state `G`: the row orders it draws -/
structure NpRng (G : Type) where
  /-- `permutation`/`shuffle` of `n` rows -/
  perm : Nat → G → List Nat × G
  /-- `choice` of `n` rows out of `n` with replacement -/
  choice : Nat → G → List Nat × G
  perm_spec : ∀ n g, (perm n g).1.Perm (List.range n)
  choice_len : ∀ n g, (choice n g).1.length = n
  choice_lt : ∀ n g, ∀ i ∈ (choice n g).1, i < n

/-- `rng.permutation(x, axis=0)` / `rng.choice(x, size=len(x), replace=True, axis=0)` on a variable -/
def NpRng.resampler {G α : Type} [Inhabited α] (R : NpRng G) : Resampler (List α) G where
  permute x g := let r := R.perm x.length g; (selectRows x r.1, r.2)
  choice x g := let r := R.choice x.length g; (selectRows x r.1, r.2)

/-- `_calculate` of the discrete mutual-information estimator on the (already shifted) data,
`mutual_information/discrete.py:84-123` -/
noncomputable def discreteMICalc {G : Type} (base : Base) : MICalc (List Int) G := fun data g =>
  ((miGlobal (logBase base) (.all1D data) none).map .scalar, g)

/-- `_calculate` of the discrete conditional mutual-information estimator (condition already reduced;
it is never resampled), `mutual_information/discrete.py:125-…` -/
noncomputable def discreteCMICalc {G : Type} (cond : List Int) (base : Base) : MICalc (List Int) G :=
  fun data g => ((cmiNdInt (logBase base) data cond none).map .scalar, g)

/-- the draw the flags ask for -/
def teRandom {G : Type} (R : NpRng G) (f : TEFlags) (g : G) : SrcRandom where
  permute := if f.permute then some (fun n => (R.perm n g).1) else none
  resample := if f.resample then some (fun n => (R.choice n g).1) else none

/-- `_calculate` of the discrete transfer-entropy estimator on the (already shifted) series,
`transfer_entropy/discrete.py:117-149`; `adv` is how the generator state moves on. -/
noncomputable def discreteTECalc {G : Type} (R : NpRng G) (adv : TEFlags → G → G)
    (source dest : List Int) (p : TEParams) (base : Base) : TECalc G := fun f g =>
  ((do
    let s ← teObservations source dest p.srcHist p.destHist p.step (teRandom R f g)
    let v ← combinedTE (logBase base) s none
    pure (CalcRes.scalar v)), adv f g)

/-- `_calculate` of the discrete conditional transfer-entropy estimator,
`transfer_entropy/discrete.py:195-226`: the flags are not passed on. -/
noncomputable def discreteCTECalc {G : Type} (source dest cond : List Int) (p : TEParams)
    (condHist : PyArg) (base : Base) : TECalc G := fun _ g =>
  ((do
    let s ← cteObservations source dest cond p.srcHist p.destHist condHist p.step
    let v ← combinedTE (logBase base) s none
    pure (CalcRes.scalar v)), g)

end Verif
