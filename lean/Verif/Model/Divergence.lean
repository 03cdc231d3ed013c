import Verif.Model.BiasCorrected
import Verif.Model.Ordinal

/-!
# Model of the composite measures

`infomeasure/composite_measures/kld.py`, `infomeasure/composite_measures/jsd.py` and the
cross-entropy entry point `estimators/functional.py:393-404`.
-/

namespace Verif

/-- The discrete entropy estimator classes (all `DiscreteHEstimator` subclasses except NSB), with the
keyword arguments the class accepts besides `base`. -/
inductive DClass
  | discrete
  | millerMadow
  | grassberger
  | chaoShen
  | chaoWangJost
  | shrink
  | bayes (alpha : AlphaArg) (kParam : Option Nat)
  | zhang
  | bonachela
  | ansb (k : Option Int)

/-- `_simple_entropy` of the class -/
noncomputable def DClass.simple (c : DClass) (b : Base) (d : DiscreteData Int) : Except Exc ℝ :=
  match c with
  | .discrete => discreteSimple b d
  | .millerMadow => mmSimple b d
  | .grassberger => grassbergerSimple b d
  | .chaoShen => chaoShenSimple b d
  | .chaoWangJost => cwjSimple b d
  | .shrink => shrinkSimple b d
  | .bayes α k => bayesSimple α k b d
  | .zhang => zhangSimple b d
  | .bonachela => bonachelaSimple b d
  | .ansb k => ansbSimple k b d

/-- `_cross_entropy` of the class.  Only the plug-in, Miller–Madow and Bayes classes implement it;
the others raise `TheoreticalInconsistencyError` (`entropy/grassberger.py:51-66`,
`entropy/chao_shen.py:65-82`, `entropy/chao_wang_jost.py:161-178`, `entropy/shrink.py:130-145`,
`entropy/zhang.py:169-183`, `entropy/bonachela.py:91-103`, `entropy/ansb.py:128-141`). -/
noncomputable def DClass.cross (c : DClass) (b : Base) (p q : DiscreteData Int) : Except Exc ℝ :=
  match c with
  | .discrete => discreteCross b p q
  | .millerMadow => mmCross b p q
  | .bayes α k => bayesCross α k b p q
  | _ => .error .theoreticalInconsistency

/-- `estimator_class(*data, base=base, ...).global_val()`: constructor
(`estimators/base.py:1146-1159`), then dispatch on the number of data. -/
noncomputable def DClass.globalVal (c : DClass) (b : Base) (args : List EInput) : Except Exc ℝ := do
  let data ← discreteHInit args
  entropyDispatch (c.simple b) (c.cross b) data

/-- `kullback_leiber_divergence`, `composite_measures/kld.py:7-49`: `H_Q(P) - H(P)`, the
cross-entropy is computed first. -/
noncomputable def kld (c : DClass) (b : Base) (p q : EInput) : Except Exc ℝ := do
  let hqp ← c.globalVal b [p, q]
  let hp ← c.globalVal b [p]
  pure (hqp - hp)

/-- `dict.get(key, 0)` -/
noncomputable def dictGetZero {κ : Type} [DecidableEq κ] (l : List (κ × ℝ)) (k : κ) : ℝ :=
  match dictGet l k with
  | .ok v => v
  | .error _ => 0

/-- `jensen_shannon_divergence`, `composite_measures/jsd.py:85-98`: the part after the estimators have
been built, on their global values and their `dist_dict`s.  The union of the keys is a Python set
(arbitrary order); here: order of first occurrence from the right. -/
noncomputable def jsdCore {κ : Type} [DecidableEq κ] (b : Base) (ests : List (ℝ × List (κ × ℝ))) :
    Except Exc ℝ :=
  if ests.length = 0 then .error .zeroDivisionError
  else do
    let n : ℝ := ests.length
    let marginal := (ests.map (fun e => e.1)).sum / n
    let keys := (ests.flatMap (fun e => e.2.map (fun kv => kv.1))).dedup
    let mix := keys.map (fun k => (ests.map (fun e => dictGetZero e.2 k)).sum / n)
    let terms ← mix.mapM (fun p => do
      let l ← logBase b p
      pure (p * l))
    pure (- terms.sum - marginal)

/-- the `dist_dict` property of the classes that define it: `entropy/discrete.py:78-81`,
`entropy/shrink.py:106-111`, `entropy/bayes.py:115-118`.  (`bayes_probs` overwrites `self.alpha` by
the resolved number, which the next evaluation returns unchanged.) -/
noncomputable def DClass.dist (c : DClass) (d : DiscreteData Int) : Except Exc (List (Int × ℝ)) :=
  match c with
  | .discrete => .ok d.distributionDict
  | .shrink => .ok (d.uniq.zip (shrinkProbs d))
  | .bayes α k => (bayesProbs α k d).map (fun ps => d.uniq.zip ps)
  | _ => .error .attributeError

/-- `dist_dict` reads `self.data[0]` -/
noncomputable def DClass.distOf (c : DClass) (data : List (DiscreteData Int)) :
    Except Exc (List (Int × ℝ)) :=
  match data with
  | x :: _ => c.dist x
  | [] => .error .indexError

/-- `isinstance(var, (list, ndarray))`, `composite_measures/jsd.py:60-61` -/
def EInput.isArrayLike : EInput → Bool
  | .arr1 _ => true
  | .arr2 _ => true
  | _ => false

/-- the classes listed in `composite_measures/jsd.py:75-83` (the ordinal class is `ordJsd`) -/
def DClass.jsdSupported : DClass → Bool
  | .discrete => true
  | .shrink => true
  | .bayes _ _ => true
  | _ => false

/-- `jensen_shannon_divergence` for the discrete classes, `composite_measures/jsd.py:24-109`.  All
estimators are built first; the remaining classes end in the final `raise ValueError`. -/
noncomputable def jsdDiscrete (c : DClass) (b : Base) (data : List EInput) : Except Exc ℝ :=
  if ¬ data.all EInput.isArrayLike then .error .valueError
  else if ¬ c.jsdSupported then .error .valueError
  else do
    let ests ← data.mapM (fun v => discreteHInit [v])
    let vals ← ests.mapM (fun d => entropyDispatch (c.simple b) (c.cross b) d)
    if vals.length = 0 then .error .zeroDivisionError
    else do
      let dists ← ests.mapM c.distOf
      jsdCore b (vals.zip dists)

section
variable {α : Type} [LinearOrder α] [Inhabited α]

/-- keys of the ordinal `dist_dict`: the integer 0 for dimension 1, a tuple otherwise -/
inductive OKey
  | zero
  | perm (p : List Nat)
  deriving DecidableEq

/-- `dist_dict` left behind by `_simple_entropy`, `entropy/ordinal.py:206-218` -/
noncomputable def ordKeys (o : Option OrdDist) : List (OKey × ℝ) :=
  match o with
  | none => [(.zero, 1)]
  | some o => o.dist.map (fun e => (.perm e.1, e.2))

/-- `jensen_shannon_divergence(..., approach="ordinal")` for one-dimensional array-likes,
`composite_measures/jsd.py:84-98`. -/
noncomputable def ordJsd (quick : Argsort α) (data : List (List α)) (p : OrdParams) (b : Base) :
    Except Exc ℝ := do
  let ests ← data.mapM (fun x => ordInit [.arr1 x] p)
  let vals ← (data.zip ests).mapM (fun e => ordSimple quick e.1 e.2.2.1 e.2.2.2 p.stable b)
  jsdCore b (vals.map (fun v => (v.1, ordKeys v.2)))

/-- `kullback_leiber_divergence(..., approach="ordinal")`, `composite_measures/kld.py:45-49` -/
noncomputable def ordKld (quick : Argsort α) (x y : List α) (p : OrdParams) (b : Base) :
    Except Exc ℝ := do
  let hqp ← ordEntropy quick [.arr1 x, .arr1 y] p b
  let hp ← ordEntropy quick [.arr1 x] p b
  pure (hqp - hp)

end

end Verif
