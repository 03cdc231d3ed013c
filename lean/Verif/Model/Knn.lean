import Verif.Model.Kernel
import Verif.Model.BiasCorrected
import Mathlib.Analysis.SpecialFunctions.Pow.Real
import Mathlib.Analysis.SpecialFunctions.Gamma.Basic

/-!
# Model of the nearest-neighbour estimators

`infomeasure/estimators/utils/unit_ball_volume.py`, `utils/exponential_family.py`,
`entropy/{kozachenko_leonenko,renyi,tsallis}.py`,
`mutual_information/kraskov_stoegbauer_grassberger.py`,
`transfer_entropy/kraskov_stoegbauer_grassberger.py`.

Floats are real numbers.  SciPy's `KDTree` is modelled by its contract: `query(x, k, p)` returns the `k`
smallest Minkowski distances in increasing order, padded with `inf` when there are fewer than `k` points
(`none` below); with `k == 1` the neighbour axis is squeezed away; `query_ball_point(x, r, p)` counts the
points at distance at most `r`.  `nextafter(r, -inf)` is the largest float below `r`, so counting up to it
is counting strictly below `r`.  The random noise is an arbitrary array.
-/

namespace Verif

/-- the Minkowski parameter: a number or `inf` -/
inductive PNorm
  | inf
  | num (p : ℝ)

/-- `unit_ball_volume`, `utils/unit_ball_volume.py:7-46` -/
noncomputable def unitBallVolume (d : Nat) (r : ℝ) (p : PNorm) : ℝ :=
  match p with
  | .inf => (2 * r) ^ d
  | .num p =>
    open Classical in
    if p = 2 then
      if d = 1 then 2 * r
      else if d = 2 then Real.pi * r ^ 2
      else if d = 3 then 4 / 3 * Real.pi * r ^ 3
      else (Real.pi ^ ((d : ℝ) / 2) * r ^ d) / Real.Gamma (1 + (d : ℝ) / 2)
    else ((2 * r) ^ d * Real.Gamma (1 + 1 / p) ^ d) / Real.Gamma (1 + (d : ℝ) / p)

/-- Minkowski distance of two rows as SciPy computes it -/
noncomputable def minkDist (p : PNorm) (x y : List ℝ) : ℝ :=
  match p with
  | .inf => (List.zipWith (fun a b => |a - b|) x y).foldr max 0
  | .num q => ((List.zipWith (fun a b => |a - b| ^ q) x y).sum) ^ (1 / q)

/-- `KDTree(rows).query(x, k, p)[0][k - 1]`: the `k`-th smallest distance; `none` is `inf` -/
noncomputable def kthDist (p : PNorm) (rows : List (List ℝ)) (k : Nat) (x : List ℝ) : Option ℝ :=
  open Classical in
  ((rows.map (minkDist p x)).mergeSort (fun a b => decide (a ≤ b)))[k - 1]?

/-- `KDTree(rows).query_ball_point(x, r, p, return_length=True)` -/
noncomputable def closedCount (p : PNorm) (rows : List (List ℝ)) (r : Option ℝ) (x : List ℝ) : Nat :=
  match r with
  | none => rows.length
  | some r => open Classical in rows.countP (fun y => decide (minkDist p x y ≤ r))

/-- `KDTree(rows).query_ball_point(x, nextafter(r, -inf), p, return_length=True)` -/
noncomputable def openCount (p : PNorm) (rows : List (List ℝ)) (r : Option ℝ) (x : List ℝ) : Nat :=
  match r with
  | none => rows.length
  | some r => open Classical in rows.countP (fun y => decide (minkDist p x y < r))

/-- adding the noise array to the data; `none`: no noise.  Entry `(t, j)` of the array is added to column
`j` of row `t`. -/
def jitter (e : Option (Nat → Nat → ℝ)) (a : Arr) : Arr :=
  match e with
  | none => a
  | some e => ⟨a.cols, a.rows.mapIdx (fun t r => r.mapIdx (fun j v => v + e t j))⟩

/-! ## Kraskov–Stögbauer–Grassberger mutual information -/

/-- parameters of the KSG estimators.  `k` is not validated by the classes; negative values and values
that are not integers (rejected by SciPy) are not modelled. -/
structure KsgCfg where
  k : Nat := 4
  ksgId : Int := 1
  p : PNorm := .inf

/-- `(kth_distances > 0).astype(int)` -/
noncomputable def posFlag (r : Option ℝ) : Nat :=
  match r with
  | none => 1
  | some r => open Classical in if 0 < r then 1 else 0

/-- the argument of digamma for one marginal space,
`mutual_information/kraskov_stoegbauer_grassberger.py:191-236`: type I counts strictly, without the
point itself, and adds one; type II counts non-strictly, with the point itself. -/
noncomputable def ksgArg (cfg : KsgCfg) (rows : List (List ℝ)) (r : Option ℝ) (x : List ℝ) : Int :=
  if cfg.ksgId = 1 then ((openCount cfg.p rows r x : Int) - posFlag r) + 1
  else (closedCount cfg.p rows r x : Int)

/-- `digamma(k)` (type I) or `digamma(k) - 1/k` (type II) -/
noncomputable def ksgLead (cfg : KsgCfg) : Except Exc ℝ :=
  (npDigamma cfg.k).map (fun ψ => if cfg.ksgId = 1 then ψ else ψ - 1 / (cfg.k : ℝ))

/-- the constructor check of `ksg_id` -/
def ksgIdCheck (cfg : KsgCfg) : Except Exc Unit :=
  if cfg.ksgId = 1 ∨ cfg.ksgId = 2 then .ok () else .error .valueError

/-- local value of one sample of `KSGMIEstimator`,
`mutual_information/kraskov_stoegbauer_grassberger.py:214-238` -/
noncomputable def ksgMIAt (cfg : KsgCfg) (base : Base) (vars : List Arr) (joint : Arr) (t : Nat) :
    Except Exc ℝ := do
  let r := kthDist cfg.p joint.rows (cfg.k + 1) (joint.rows.getD t [])
  let lead ← ksgLead cfg
  let ψs ← vars.mapM (fun v => npDigamma (ksgArg cfg v.rows r (v.rows.getD t [])))
  let ψN ← npDigamma (vars.headD ⟨0, []⟩).rows.length
  scaleBase base (lead - ψs.sum + ((vars.length : ℝ) - 1) * ψN)

/-- `KSGMIEstimator._calculate`, `mutual_information/kraskov_stoegbauer_grassberger.py:157-238`, after the
noise has been added.  With `k = 0` the query asks for one neighbour and the result has no second axis
(IndexError). -/
noncomputable def ksgMICalc (cfg : KsgCfg) (base : Base) (vars : List Arr) : Except Exc (List ℝ) := do
  let joint ← stackArrs vars
  if cfg.k = 0 then .error .indexError
  else (List.range (vars.headD ⟨0, []⟩).rows.length).mapM (ksgMIAt cfg base vars joint)

/-- `KSGMIEstimator(...).local_vals()`: constructor (`:50-118`), noise, calculation; `noise i` is the noise
array of variable `i`. -/
noncomputable def ksgMILocal (data : List KVar) (offset : Option Int) (normalize : Bool) (cfg : KsgCfg)
    (noise : Nat → Option (Nat → Nat → ℝ)) (base : Base) : Except Exc (List ℝ) := do
  let d ← kmiInit data offset normalize
  ksgIdCheck cfg
  ksgMICalc cfg base ((d.map assure2d).mapIdx (fun i a => jitter (noise i) a))

/-- `KSGMIEstimator(...).result()`; constructor `mutual_information/kraskov_stoegbauer_grassberger.py:50-118` -/
noncomputable def ksgMI (data : List KVar) (offset : Option Int) (normalize : Bool) (cfg : KsgCfg)
    (noise : Nat → Option (Nat → Nat → ℝ)) (base : Base) : Except Exc ℝ := do
  let ls ← ksgMILocal data offset normalize cfg noise base
  meanOrNan ls

/-! ## Conditional mutual information -/

/-- local value of one sample of `KSGCMIEstimator`,
`mutual_information/kraskov_stoegbauer_grassberger.py:269-351`; `margs` are the spaces (variable,
condition). -/
noncomputable def ksgCMIAt (cfg : KsgCfg) (base : Base) (margs : List Arr) (cond joint : Arr) (t : Nat) :
    Except Exc ℝ := do
  let r := kthDist cfg.p joint.rows (cfg.k + 1) (joint.rows.getD t [])
  let lead ← ksgLead cfg
  let ψz ← npDigamma (ksgArg cfg cond.rows r (cond.rows.getD t []))
  let ψs ← margs.mapM (fun v => npDigamma (ksgArg cfg v.rows r (v.rows.getD t [])))
  scaleBase base (lead + (ψz - ψs.sum))

/-- `KSGCMIEstimator._calculate`, same lines, after the noise has been added -/
noncomputable def ksgCMICalc (cfg : KsgCfg) (base : Base) (vars : List Arr) (cond : Arr) :
    Except Exc (List ℝ) := do
  let joint ← stackArrs (vars ++ [cond])
  if cfg.k = 0 then .error .indexError
  else do
    let margs ← vars.mapM (fun v => stackArrs [v, cond])
    (List.range cond.rows.length).mapM (ksgCMIAt cfg base margs cond joint)

/-- `KSGCMIEstimator(...).local_vals()`; `noiseZ` is the sum of all noise arrays added to the condition
(the code adds one per sample). -/
noncomputable def ksgCMILocal (data : List KVar) (cond : Option KVar) (offset : Option Int)
    (normalize : Bool) (cfg : KsgCfg) (noise : Nat → Option (Nat → Nat → ℝ))
    (noiseZ : Option (Nat → Nat → ℝ)) (base : Base) : Except Exc (List ℝ) := do
  let dz ← kcmiInit data cond offset normalize
  ksgIdCheck cfg
  ksgCMICalc cfg base ((dz.1.map assure2d).mapIdx (fun i a => jitter (noise i) a))
    (jitter noiseZ (assure2d dz.2))

/-- `KSGCMIEstimator(...).result()` -/
noncomputable def ksgCMI (data : List KVar) (cond : Option KVar) (offset : Option Int)
    (normalize : Bool) (cfg : KsgCfg) (noise : Nat → Option (Nat → Nat → ℝ))
    (noiseZ : Option (Nat → Nat → ℝ)) (base : Base) : Except Exc ℝ := do
  let ls ← ksgCMILocal data cond offset normalize cfg noise noiseZ base
  meanOrNan ls

/-! ## Transfer entropy -/

/-- local value of one embedded row, `transfer_entropy/kraskov_stoegbauer_grassberger.py`
(`KSGTEEstimator._calculate`, `KSGCTEEstimator._calculate`) -/
noncomputable def ksgTEAt (cfg : KsgCfg) (base : Base) (sp : TESpaces ℝ) (t : Nat) : Except Exc ℝ := do
  let r := kthDist cfg.p sp.joint (cfg.k + 1) (sp.joint.getD t [])
  let lead ← ksgLead cfg
  let ψ2 ← npDigamma (ksgArg cfg sp.marginal2 r (sp.marginal2.getD t []))
  let ψ1 ← npDigamma (ksgArg cfg sp.marginal1 r (sp.marginal1.getD t []))
  let ψd ← npDigamma (ksgArg cfg sp.destPast r (sp.destPast.getD t []))
  scaleBase base (lead - ψ2 - ψ1 + ψd)

/-- the common part of the two `_calculate` methods, on the embedded spaces -/
noncomputable def ksgTECalc (cfg : KsgCfg) (base : Base) (sp : TESpaces ℝ) : Except Exc (List ℝ) :=
  if cfg.k = 0 then .error .indexError
  else (List.range sp.joint.length).mapM (ksgTEAt cfg base sp)

/-- adding a noise array to a one-dimensional series -/
def jitter1 (e : Option (Nat → ℝ)) (xs : List ℝ) : List ℝ :=
  match e with
  | none => xs
  | some e => xs.mapIdx (fun t v => v + e t)

/-- `KSGTEEstimator(...).local_vals()` for one-dimensional series,
`transfer_entropy/kraskov_stoegbauer_grassberger.py` -/
noncomputable def ksgTELocal (source dest : List ℝ) (p : TEParams) (propTime offset : Option PyArg)
    (cfg : KsgCfg) (noiseX noiseY : Option (Nat → ℝ)) (base : Base) (rnd : SrcRandom := {}) :
    Except Exc (List ℝ) := do
  let d ← teInit source dest propTime offset p.step
  ksgIdCheck cfg
  let s ← teObservations (jitter1 noiseX d.1) (jitter1 noiseY d.2) p.srcHist p.destHist p.step rnd
  let sp ← constructJointSpaces s
  ksgTECalc cfg base sp

/-- `KSGTEEstimator(...).result()`; constructor `transfer_entropy/kraskov_stoegbauer_grassberger.py:56-139` -/
noncomputable def ksgTE (source dest : List ℝ) (p : TEParams) (propTime offset : Option PyArg)
    (cfg : KsgCfg) (noiseX noiseY : Option (Nat → ℝ)) (base : Base) (rnd : SrcRandom := {}) :
    Except Exc ℝ := do
  let ls ← ksgTELocal source dest p propTime offset cfg noiseX noiseY base rnd
  meanOrNan ls

/-- `KSGCTEEstimator(...).local_vals()` for one-dimensional series -/
noncomputable def ksgCTELocal (source dest : List ℝ) (cond : Option (List ℝ)) (p : TEParams)
    (condHist : PyArg) (propTime offset : Option PyArg) (cfg : KsgCfg)
    (noiseX noiseY noiseZ : Option (Nat → ℝ)) (base : Base) : Except Exc (List ℝ) := do
  let d ← cteInit source dest cond propTime offset
  ksgIdCheck cfg
  let s ← cteObservations (jitter1 noiseX d.1) (jitter1 noiseY d.2.1) (jitter1 noiseZ d.2.2)
    p.srcHist p.destHist condHist p.step
  let sp ← constructJointSpaces s
  ksgTECalc cfg base sp

/-- `KSGCTEEstimator(...).result()` -/
noncomputable def ksgCTE (source dest : List ℝ) (cond : Option (List ℝ)) (p : TEParams)
    (condHist : PyArg) (propTime offset : Option PyArg) (cfg : KsgCfg)
    (noiseX noiseY noiseZ : Option (Nat → ℝ)) (base : Base) : Except Exc ℝ := do
  let ls ← ksgCTELocal source dest cond p condHist propTime offset cfg noiseX noiseY noiseZ base
  meanOrNan ls

/-! ## Kozachenko–Leonenko entropy -/

/-- parameters of the Kozachenko–Leonenko entropy as received -/
structure KlCfg where
  k : PyArg := .int 4
  ksgId : Int := 1
  noiseNegative : Bool := false
  p : PNorm := .inf

/-- `1 <= minkowski_p <= inf` -/
noncomputable def PNorm.ok : PNorm → Bool
  | .inf => true
  | .num p => open Classical in decide (1 ≤ p)

/-- `-psi_k + digamma(N) + log(c_d)`, `entropy/kozachenko_leonenko.py:196-206` and `:252-266`; `psi_k` is
`digamma(k)`, for `ksg_id = 2` less `1 / k` -/
noncomputable def klConst (k ksgId : Int) (p : PNorm) (n d : Nat) : Except Exc ℝ := do
  let ψk ← npDigamma k
  let ψN ← npDigamma n
  let lc ← npLog (unitBallVolume d (1 / 2) p)
  .ok (- (if ksgId = 2 then ψk - 1 / (k : ℝ) else ψk) + ψN + lc)

open Classical in
/-- one local value, `entropy/kozachenko_leonenko.py:196-209`: a zero distance becomes `nan` and then 0, an
infinite distance stays infinite. -/
noncomputable def klLocalFrom (c : ℝ) (d : Nat) (base : Base) : Option ℝ → Except Exc ℝ
  | none => .error .nonFinite
  | some e => if e = 0 then scaleBase base 0
      else (npLog (2 * e)).bind (fun le => scaleBase base (c + (d : ℝ) * le))

/-- the same with its constant -/
noncomputable def klLocalAt (k ksgId : Int) (p : PNorm) (n d : Nat) (dist : Option ℝ) (base : Base) :
    Except Exc ℝ :=
  (klConst k ksgId p n d).bind (fun c => klLocalFrom c d base dist)

/-- an infinite distance has no finite logarithm -/
def finiteDist : Option ℝ → Except Exc ℝ
  | none => .error .nonFinite
  | some e => .ok e

/-- `KozachenkoLeonenkoEntropyEstimator._simple_entropy`, `entropy/kozachenko_leonenko.py:172-209`, after the
noise has been added: local values -/
noncomputable def klSimple (k ksgId : Int) (p : PNorm) (a : Arr) (base : Base) : Except Exc (List ℝ) :=
  a.rows.mapM (fun x => klLocalAt k ksgId p a.rows.length a.cols (kthDist p a.rows (k.toNat + 1) x) base)

open Classical in
/-- `KozachenkoLeonenkoEntropyEstimator._cross_entropy`, `entropy/kozachenko_leonenko.py:225-268`, after the
noise has been added.  The query asks for `k` neighbours; for `k = 1` the neighbour axis is squeezed away
and `distances[:, -1]` is an IndexError.  An infinite distance makes the sum infinite. -/
noncomputable def klCross (k ksgId : Int) (p : PNorm) (a b : Arr) (base : Base) : Except Exc ℝ :=
  if a.cols ≠ b.cols then .error .valueError
  else if k = 1 then .error .indexError
  else do
    let dists ← a.rows.mapM (fun x => finiteDist (kthDist p b.rows k.toNat x))
    let c ← klConst k ksgId p b.rows.length b.cols
    let ls ← (dists.filter (fun e => decide (0 < e))).mapM (fun e => npLog (2 * e))
    scaleBase base (c + (b.cols : ℝ) * ls.sum / (b.rows.length : ℝ))

/-- the constructor, `entropy/kozachenko_leonenko.py:144-178`: the parameters are checked first, then the
data as in `EntropyEstimator.__init__`, then `ksg_id`. Returns the array(s). -/
noncomputable def klInit (args : List KArg) (cfg : KlCfg) : Except Exc (List KArg) :=
  if cfg.k.posInt = false then .error .valueError
  else if cfg.noiseNegative then .error .valueError
  else if cfg.p.ok = false then .error .valueError
  else do
    let data ← match args with
      | [.arr v] => .ok [.arr v]
      | [.tup vs] =>
        if vs.all (fun d => decide (d.len = (vs.headD (.one [])).len)) then .ok [.tup vs]
        else .error .valueError
      | [.arr p, .arr q] => .ok [.arr p, .arr q]
      | _ => .error .valueError
    if cfg.ksgId = 1 ∨ cfg.ksgId = 2 then .ok data else .error .valueError

/-- `KozachenkoLeonenkoEntropyEstimator(...).local_vals()`; the noise array is drawn in the shape of the
(joint) data (`_joint_entropy`, `entropy/kozachenko_leonenko.py:211-223`). -/
noncomputable def klEntropyLocal (args : List KArg) (cfg : KlCfg) (noise : Option (Nat → Nat → ℝ))
    (base : Base) : Except Exc (List ℝ) := do
  let data ← klInit args cfg
  match data with
  | [.arr v] => klSimple cfg.k.val cfg.ksgId cfg.p (jitter noise (assure2d v)) base
  | [.tup vs] => do
    let a ← stackArrs (vs.map assure2d)
    klSimple cfg.k.val cfg.ksgId cfg.p (jitter noise a) base
  | _ => .error .unsupportedOperation

/-- `KozachenkoLeonenkoEntropyEstimator(...).result()`: mean of the local values, or the cross-entropy of two
arguments. -/
noncomputable def klEntropy (args : List KArg) (cfg : KlCfg) (noise noiseQ : Option (Nat → Nat → ℝ))
    (base : Base) : Except Exc ℝ := do
  let data ← klInit args cfg
  match data with
  | [.arr p, .arr q] =>
    klCross cfg.k.val cfg.ksgId cfg.p (jitter noise (assure2d p)) (jitter noiseQ (assure2d q)) base
  | _ => do
    let ls ← klEntropyLocal args cfg noise base
    meanOrNan ls

/-! ## Rényi and Tsallis entropy -/

/-- what `calculate_common_entropy_components` returns -/
structure KnnParts where
  vol : ℝ
  rho : List ℝ
  n : Nat
  m : Nat

/-- `calculate_common_entropy_components`, `utils/exponential_family.py:13-65` (Euclidean distance).  With
`at` given and `k = 1` the neighbour axis is squeezed away (IndexError). -/
noncomputable def knnParts (data : Arr) (k : Nat) (at? : Option Arr) : Except Exc KnnParts :=
  let kq := match at? with | none => k + 1 | some _ => k
  if (at?.getD data).cols ≠ data.cols then .error .valueError
  else if data.rows.length < kq then .error .valueError
  else if kq = 1 then .error .indexError
  else .ok {
    vol := Real.pi ^ ((data.cols : ℝ) / 2) / Real.Gamma ((data.cols : ℝ) / 2 + 1)
    rho := (at?.getD data).rows.map (fun x => (kthDist (.num 2) data.rows kq x).getD 0)
    n := data.rows.length
    m := data.cols }

open Classical in
/-- `exponential_family_iq`, `utils/exponential_family.py:68-101`; `n` is the number of points passed by the
caller.  Γ at a non-positive argument, a fractional power of a negative number and division by the
length of an empty array are not finite. -/
noncomputable def expFamilyIq (k : Nat) (q : ℝ) (vol : ℝ) (rho : List ℝ) (n : ℝ) (m : Nat) :
    Except Exc ℝ :=
  if q = (k : ℝ) + 1 then .ok 0
  else
    let g := Real.Gamma k / Real.Gamma ((k : ℝ) + 1 - q)
    if g ≤ 0 then .error .nonFinite
    else if rho.length = 0 then .error .nonFinite
    else
      let c := g ^ (1 / (1 - q))
      .ok ((n * c * vol) ^ (1 - q)
        * (((rho.filter (fun r => decide (0 < r))).map (fun r => (r ^ m) ^ (1 - q))).sum) / rho.length)

open Classical in
/-- `exponential_family_i1`, `utils/exponential_family.py:104-136` -/
noncomputable def expFamilyI1 (k : Nat) (vol : ℝ) (rho : List ℝ) (n : ℝ) (m : Nat) (base : Base) :
    Except Exc ℝ := do
  let ψ ← npDigamma k
  let zeta := rho.map (fun r => n * Real.exp (-ψ) * vol * r ^ m)
  let ls ← (zeta.filter (fun z => decide (0 < z))).mapM (logBase base)
  npDiv ls.sum zeta.length

open Classical in
/-- `RenyiEntropyEstimator._simple_entropy` / `_cross_entropy`, `entropy/renyi.py:75-93`, `109-129`; `n` is
`N - 1` for the entropy and `M` for the cross-entropy -/
noncomputable def renyiVal (k : Nat) (α : ℝ) (parts : KnnParts) (n : ℝ) (base : Base) : Except Exc ℝ :=
  if α ≠ 1 then do
    let i ← expFamilyIq k α parts.vol parts.rho n parts.m
    if i = 0 then .ok 0
    else (logBase base i).map (fun l => l / (1 - α))
  else expFamilyI1 k parts.vol parts.rho n parts.m base

open Classical in
/-- `TsallisEntropyEstimator._simple_entropy` / `_cross_entropy`, `entropy/tsallis.py:73-91`, `107-127` -/
noncomputable def tsallisVal (k : Nat) (q : ℝ) (parts : KnnParts) (n : ℝ) (base : Base) : Except Exc ℝ :=
  if q ≠ 1 then do
    let i ← expFamilyIq k q parts.vol parts.rho n parts.m
    if i = 0 then .ok 0
    else .ok ((1 - i) / (q - 1))
  else expFamilyI1 k parts.vol parts.rho n parts.m base

/-- the constructors, `entropy/renyi.py:47-73`, `entropy/tsallis.py:45-71`: data first, then the order
(`isinstance(alpha, (int, float))` and positive), then `k` -/
noncomputable def expInit (args : List KArg) (k order : PyArg) : Except Exc (List KArg × Nat × ℝ) := do
  let data ← match args with
    | [.arr v] => .ok [.arr v]
    | [.tup vs] =>
      if vs.all (fun d => decide (d.len = (vs.headD (.one [])).len)) then .ok [.tup vs]
      else .error .valueError
    | [.arr p, .arr q] => .ok [.arr p, .arr q]
    | _ => .error .valueError
  match order.posNumber with
  | none => .error .valueError
  | some q => if k.posInt then .ok (data, k.val.toNat, q) else .error .valueError

/-- `entropy(..., approach="renyi" | "tsallis")`: `val` is `renyiVal` or `tsallisVal`; a tuple of variables
is stacked first (`_joint_entropy`, `entropy/renyi.py:95-107`, `entropy/tsallis.py:93-105`) -/
noncomputable def expEntropy (val : Nat → ℝ → KnnParts → ℝ → Base → Except Exc ℝ) (args : List KArg)
    (k order : PyArg) (base : Base) : Except Exc ℝ := do
  let i ← expInit args k order
  match i.1 with
  | [.arr v] => do
    let parts ← knnParts (assure2d v) i.2.1 none
    val i.2.1 i.2.2 parts ((parts.n : ℝ) - 1) base
  | [.tup vs] => do
    let a ← stackArrs (vs.map assure2d)
    let parts ← knnParts a i.2.1 none
    val i.2.1 i.2.2 parts ((parts.n : ℝ) - 1) base
  | [.arr p, .arr q] => do
    let parts ← knnParts (assure2d q) i.2.1 (some (assure2d p))
    val i.2.1 i.2.2 parts (parts.n : ℝ) base
  | _ => .error .runtimeError

end Verif
