import Verif.Model.EndToEnd

/-!
# Model: float arrays given to the estimators of discrete data

The discrete estimators accept float arrays; only a warning is logged (`estimators/base.py:1199-1241`).  Of the symbols nothing but their
equality and order is used: `unique` (`utils/data.py:48-54`, `estimators/utils/ordinal.py:206`,
`estimators/utils/discrete_interaction_information.py:88, 288, 405, 519`), `crosstab` (`:161`), `Counter` (`:212-214`), `dict` and `set` keyed
by symbols (`entropy/discrete.py:95-113`, `entropy/grassberger.py:29-48`).  So here a call with float arrays is the call in which each
number is replaced by its rank among all numbers of the call: this is the simplification made.  `nan` is not modelled.
-/

namespace Verif

/-- the numbers occurring in an argument (`*data` of `estimators/functional.py:325-575`) -/
def PyData.numbers : PyData → List ℝ
  | .ints xs => asReals xs
  | .reals xs => xs
  | .mat a => a.rows.flatten
  | .imat _ rows => (rows.map asReals).flatten
  | .intTup cols => (cols.map asReals).flatten
  | .tup vs => (vs.filterMap KVar.series).flatten

/-- the argument with the symbols replaced by codes; a tuple with two-dimensional float arrays is left out (`estimators/base.py:1244-1283`) -/
def PyData.recode (c : ℝ → Int) : PyData → Option PyData
  | .ints xs => some (.ints ((asReals xs).map c))
  | .reals xs => some (.ints (xs.map c))
  | .mat a => some (.imat a.cols (a.rows.map (List.map c)))
  | .imat m rows => some (.imat m (rows.map (fun r => (asReals r).map c)))
  | .intTup cols => some (.intTup (cols.map (fun v => (asReals v).map c)))
  | .tup vs => (vs.mapM KVar.series).map (fun cols => .intTup (cols.map (List.map c)))

open Classical in
/-- the number of different numbers of `pool` below `x`: the index of `x` in `unique(pool)`, `utils/data.py:53` -/
noncomputable def rankIn (pool : List ℝ) (x : ℝ) : Int := ((pool.toFinset.filter (· < x)).card : Int)

/-- the estimators of discrete data, `estimators/functional.py:29-176` (the classes of these names) -/
def Fam.isSymbolic : Fam → Bool
  | .discrete | .millerMadow | .grassberger | .chaoShen | .chaoWangJost | .shrink | .zhang | .bonachela | .bayes | .ansb | .nsb => true
  | _ => false

/-- the estimator with each number replaced by its rank among all numbers of the call (see the head of this file),
`utils/data.py:48-54` -/
noncomputable def Est.recoded (e : Est) : Option Est := do
  let pool := ((e.data ++ e.cond.toList).map PyData.numbers).flatten
  let data ← e.data.mapM (PyData.recode (rankIn pool))
  match e.cond with
  | none => some { e with data := data }
  | some z => do
    let z' ← z.recode (rankIn pool)
    some { e with data := data, cond := some z' }

/-- the parameters after the base constructor has shifted and scaled the data, `estimators/base.py:497-516, 657-667` -/
def Kw.prepared (par : Kw) : Kw := fun k => if k = "normalize" then some (.bool false) else if k = "offset" then some (.int 0) else par k

/-- `normalize=True` in the constructors of the bias-corrected classes: the shift of `offset`, then `normalize_data_0_1` of each variable (and of
the condition), `estimators/base.py:487-516, 646-667`; then `_calculate` on the scaled data.  A constant variable becomes `nan`s: not modelled. -/
noncomputable def Est.normalized (W : World) (e : Est) : Option (Except Exc ℝ) := do
  let o ← e.get "offset" PyVal.toOptInt
  let cols ← e.data.mapM PyData.toSeries
  match e.cls.kind, e.cond with
  | .mi, _ =>
    match (miInit cols o).bind (fun d => d.mapM normalize01) with
    | .error .nonFinite => none
    | .error x => some (.error x)
    | .ok d => do
      let e' ← Est.recoded { e with data := d.map PyData.reals, par := e.par.prepared }
      some (Est.result W e')
  | .cmi, some zd => do
    let z ← zd.toSeries
    match (cmiInit cols (some z) o).bind (fun dz => do
      let d ← dz.1.mapM normalize01
      let z' ← normalize01 dz.2
      pure (d, z')) with
    | .error .nonFinite => none
    | .error x => some (.error x)
    | .ok (d, z') => do
      let e' ← Est.recoded { e with data := d.map PyData.reals, cond := some (.reals z'), par := e.par.prepared }
      some (Est.result W e')
  | _, _ => none

/-- the bias-corrected mutual-information classes take `normalize`; the discrete and Miller–Madow ones fix it to `False`
(`mutual_information/discrete.py:69-75`, `miller_madow.py:64-68`), the other measures have no such parameter -/
def Est.normalizes (e : Est) : Bool :=
  match e.cls.kind, e.cls.fam with
  | .mi, .discrete | .mi, .millerMadow | .cmi, .discrete | .cmi, .millerMadow => false
  | .mi, _ | .cmi, _ => decide (e.get "normalize" PyVal.toBool = some true)
  | _, _ => false

/-- `.result()` of the estimators of discrete data for float arrays and for `normalize=True`, `estimators/base.py:101-128` -/
noncomputable def Est.symVal (W : World) (e : Est) : Option (Except Exc ℝ) :=
  if e.cls.fam.isSymbolic then
    if e.normalizes then e.normalized W
    else e.recoded.map (Est.result W)
  else none

/-- the world in which float arrays given to the estimators of discrete data, and `normalize=True` there, are evaluated too
(`estimators/base.py:101-128`); what is outside that is left to `other` -/
noncomputable def World.symbols (W : World) : World := { W with other := fun e => (e.symVal W).getD (W.other e) }

end Verif
