import Verif.Model.Knn

/-!
# Model of the Rényi and Tsallis mutual information and transfer entropy

`infomeasure/estimators/mutual_information/{renyi,tsallis}.py`, `transfer_entropy/{renyi,tsallis}.py` and the generic
combinations of entropies in `infomeasure/estimators/base.py`.

These entropies have no local values, so the `try` branch of the generic combinations (sums of `local_vals()`) always
ends in the `except` branch (sums of `global_val()`); only the latter is modelled.  `val` is `renyiVal` or `tsallisVal`.
-/

namespace Verif

/-- the copy of a variable with the noise array added (`data[i].astype(float) + normal(...)`); `none`: no noise. A 1-D
variable becomes a column, which the entropy estimators treat alike. -/
def noisyVar (e : Option (Nat → Nat → ℝ)) (v : KVar) : KVar :=
  match e with
  | none => v
  | some e => .two (jitter (some e) (assure2d v))

/-- the parameter checks shared by the constructors, `mutual_information/renyi.py:101-110`,
`mutual_information/tsallis.py:105-112`: the order first, then `k` -/
noncomputable def expParams (k order : PyArg) : Except Exc Unit :=
  match order.posNumber with
  | none => .error .valueError
  | some _ => if k.posInt then .ok () else .error .valueError

/-- `MutualInformationEstimator._generic_mi_from_entropy`, `estimators/base.py:518-583`, after the noise -/
noncomputable def entropyMI (H : List KArg → Except Exc ℝ) (vars : List KVar) : Except Exc ℝ := do
  let hs ← vars.mapM (fun v => H [.arr v])
  let hj ← H [.tup vars]
  pure (hs.sum - hj)

/-- `ConditionalMutualInformationEstimator._generic_cmi_from_entropy`, `estimators/base.py:669-745`, after the noise -/
noncomputable def entropyCMI (H : List KArg → Except Exc ℝ) (vars : List KVar) (cond : KVar) : Except Exc ℝ := do
  let hs ← vars.mapM (fun v => H [.tup [v, cond]])
  let hj ← H [.tup (vars ++ [cond])]
  let hz ← H [.arr cond]
  pure (hs.sum - hj - hz)

/-- the end of `_generic_te_from_entropy` / `_generic_cte_from_entropy`, `estimators/base.py:918-943`, `1073-1098` -/
noncomputable def entropyTE (H : List KArg → Except Exc ℝ) (sp : TESpaces ℝ) : Except Exc ℝ := do
  let h2 ← H [.arr (.two (Arr.ofRows sp.marginal2))]
  let h1 ← H [.arr (.two (Arr.ofRows sp.marginal1))]
  let hj ← H [.arr (.two (Arr.ofRows sp.joint))]
  let hd ← H [.arr (.two (Arr.ofRows sp.destPast))]
  pure (h2 + h1 - hj - hd)

/-- `mutual_information(*data, approach="renyi" | "tsallis", k=, alpha=/q=, ...)`, `mutual_information/renyi.py:86-160`,
`mutual_information/tsallis.py:86-161` -/
noncomputable def expMI (val : Nat → ℝ → KnnParts → ℝ → Base → Except Exc ℝ) (data : List KVar) (offset : Option Int)
    (normalize : Bool) (k order : PyArg) (noise : Nat → Option (Nat → Nat → ℝ)) (base : Base) : Except Exc ℝ := do
  let d ← kmiInit data offset normalize
  expParams k order
  entropyMI (fun a => expEntropy val a k order base) (d.mapIdx (fun i v => noisyVar (noise i) v))

/-- `conditional_mutual_information(*data, cond=, approach="renyi" | "tsallis", ...)`, `mutual_information/renyi.py:86-111`,
`198-210`, `mutual_information/tsallis.py:44-114`, `197-209` -/
noncomputable def expCMI (val : Nat → ℝ → KnnParts → ℝ → Base → Except Exc ℝ) (data : List KVar) (cond : Option KVar)
    (offset : Option Int) (normalize : Bool) (k order : PyArg) (noise : Nat → Option (Nat → Nat → ℝ))
    (noiseZ : Option (Nat → Nat → ℝ)) (base : Base) : Except Exc ℝ := do
  let dz ← kcmiInit data cond offset normalize
  expParams k order
  entropyCMI (fun a => expEntropy val a k order base) (dz.1.mapIdx (fun i v => noisyVar (noise i) v)) (noisyVar noiseZ dz.2)

/-- `issubdtype(type(step_size), integer) and step_size >= 0`, `transfer_entropy/renyi.py:137-138` -/
def expStepCheck (step : PyArg) : Except Exc Unit :=
  match step with
  | .int s => if 0 ≤ s then .ok () else .error .valueError
  | _ => .error .valueError

/-- `transfer_entropy(source, dest, approach="renyi" | "tsallis", ...)` for one-dimensional series,
`transfer_entropy/renyi.py:59-197`, `transfer_entropy/tsallis.py:60-198`, `estimators/base.py:846-943` -/
noncomputable def expTE (val : Nat → ℝ → KnnParts → ℝ → Base → Except Exc ℝ) (source dest : List ℝ) (p : TEParams)
    (propTime offset : Option PyArg) (k order : PyArg) (noiseX noiseY : Option (Nat → ℝ)) (base : Base)
    (rnd : SrcRandom := {}) : Except Exc ℝ := do
  let d ← teInit source dest propTime offset p.step
  expParams k order
  expStepCheck p.step
  let s ← teObservations (jitter1 noiseX d.1) (jitter1 noiseY d.2) p.srcHist p.destHist p.step rnd
  let sp ← constructJointSpaces s
  entropyTE (fun a => expEntropy val a k order base) sp

/-- `conditional_transfer_entropy(source, dest, cond=, approach="renyi" | "tsallis", ...)` for one-dimensional series,
`transfer_entropy/renyi.py:241-247`, `transfer_entropy/tsallis.py:241-247`,
`estimators/base.py:1020-1098` -/
noncomputable def expCTE (val : Nat → ℝ → KnnParts → ℝ → Base → Except Exc ℝ) (source dest : List ℝ) (cond : Option (List ℝ))
    (p : TEParams) (condHist : PyArg) (propTime offset : Option PyArg) (k order : PyArg)
    (noiseX noiseY noiseZ : Option (Nat → ℝ)) (base : Base) : Except Exc ℝ := do
  let d ← cteInit source dest cond propTime offset
  expParams k order
  expStepCheck p.step
  let s ← cteObservations (jitter1 noiseX d.1) (jitter1 noiseY d.2.1) (jitter1 noiseZ d.2.2)
    p.srcHist p.destHist condHist p.step
  let sp ← constructJointSpaces s
  entropyTE (fun a => expEntropy val a k order base) sp

end Verif
