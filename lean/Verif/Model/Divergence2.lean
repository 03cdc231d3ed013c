import Verif.Model.Divergence
import Verif.Model.Knn
import Verif.Model.Dispatch

/-!
# Model of the composite measures for continuous data, and of their approach names

`infomeasure/composite_measures/jsd.py`, `infomeasure/composite_measures/kld.py`.
-/

namespace Verif

/-- a further array of a concatenation that starts with a one-dimensional array (`composite_measures/jsd.py:102`) -/
def joinOne : KVar → Except Exc (List ℝ)
  | .one ys => .ok ys
  | .two _ => .error .valueError

/-- a further array of a concatenation that starts with an array of `d` columns (`composite_measures/jsd.py:102`) -/
def joinTwo (d : Nat) : KVar → Except Exc (List (List ℝ))
  | .one _ => .error .valueError
  | .two c => if c.cols = d then .ok c.rows else .error .valueError

/-- `numpy.concatenate(data, axis=0)`: no arrays, arrays of different dimension or with different numbers of
columns are a ValueError.  Used in `composite_measures/jsd.py:102`. -/
def concatVars (data : List KVar) : Except Exc KVar :=
  match data with
  | [] => .error .valueError
  | .one xs :: r => do
    let rest ← r.mapM joinOne
    pure (.one (xs ++ rest.flatten))
  | .two a :: r => do
    let rest ← r.mapM (joinTwo a.cols)
    pure (.two ⟨a.cols, a.rows ++ rest.flatten⟩)

/-- `jensen_shannon_divergence(*data, approach="kernel", ...)`, `composite_measures/jsd.py:99-105`: entropy of
the pooled sample minus the mean of the entropies (`data` is not empty when the division is reached). -/
noncomputable def kernelJsd (data : List KVar) (cfg : KdeCfg) (base : Base) : Except Exc ℝ := do
  let mix ← concatVars data
  let hm ← kernelEntropy [.arr mix] cfg base
  let hs ← data.mapM (fun v => kernelEntropy [.arr v] cfg base)
  pure (hm - hs.sum / data.length)

/-- `kullback_leiber_divergence(p, q, approach="kernel", ...)`, `composite_measures/kld.py:43-49` -/
noncomputable def kernelKld (p q : KArg) (cfg : KdeCfg) (base : Base) : Except Exc ℝ := do
  let hqp ← kernelEntropy [p, q] cfg base
  let hp ← kernelEntropy [p] cfg base
  pure (hqp - hp)

/-- `kullback_leiber_divergence(p, q, approach="metric", ...)`, `composite_measures/kld.py:43-49`: the two
estimators draw their noise independently (`e₁`, `e₂` for the cross-entropy, `e₃` for the entropy). -/
noncomputable def klKld (p q : KArg) (cfg : KlCfg) (e₁ e₂ e₃ : Option (Nat → Nat → ℝ)) (base : Base) :
    Except Exc ℝ := do
  let hqp ← klEntropy [p, q] cfg e₁ e₂ base
  let hp ← klEntropy [p] cfg e₃ none base
  pure (hqp - hp)

/-- the part of `jensen_shannon_divergence` before any estimator is built, `composite_measures/jsd.py:57-76`,
`84`, `99`, `106-109`: the estimator class whose computation is reached.  `arrayLike` says for every
positional argument whether it is a list or an array.  No entropy class of the library is a subclass of
another one, so `issubclass` is equality of classes. -/
def jsdEntry (L : PyLower) (approach : PyName) (arrayLike : List Bool) : Except Exc Fam :=
  match approach with
  | .none => .error .valueError
  | a =>
    if arrayLike.all id = false then .error .valueError
    else do
      let c ← getEstimatorClass L (.str "entropy") a
      if c.fam ∈ [Fam.renyi, .tsallis, .metric] then .error .valueError
      else if c.fam ∈ [Fam.ordinal, .bayes, .discrete, .shrink] then pure c.fam
      else if c.fam = .kernel then pure c.fam
      else .error .valueError

/-- the part of `kullback_leiber_divergence` before any estimator is built, `composite_measures/kld.py:41-43`;
the default approach is the empty string. -/
def kldEntry (L : PyLower) (approach : Option PyName) : Except Exc Fam :=
  match approach.getD (.str "") with
  | .none => .error .valueError
  | a => do
    let c ← getEstimatorClass L (.str "entropy") a
    pure c.fam

end Verif
