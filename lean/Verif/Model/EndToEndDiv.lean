import Verif.Model.EndToEnd
import Verif.Model.Divergence2

/-!
# Model of the composite measures end to end

`im.kullback_leiber_divergence` (`composite_measures/kld.py`) and `im.jensen_shannon_divergence`
(`composite_measures/jsd.py`): name dispatch, keyword binding, and the estimators evaluated with the parameters they
were built with.

Simplification, as in `Model/EndToEnd.lean`: what a call of the Jensen–Shannon divergence does with parameter values
outside the modelled fragment is an arbitrary function `oj`.
-/

namespace Verif

/-- the random numbers left after `n` arrays of noise have been drawn: the estimators of one composite measure draw
independently, `composite_measures/kld.py:45-46` -/
def World.after (W : World) (n : Nat) : World := { W with draw := fun i => W.draw (i + n) }

/-- `estimator_class(*data, **kwargs).global_val()`, `composite_measures/kld.py:45-46` -/
noncomputable def globalOf (W : World) (f : Fam) (data : List PyData) (cond : CondKw PyData) (kw : Kw) : Except Exc ℝ := do
  let e ← buildEst W { cls := ⟨.h, f⟩, data := data, cond := cond, kw := kw }
  e.result W

/-- `im.kullback_leiber_divergence(data_p, data_q, approach=…, **kwargs)`, `composite_measures/kld.py:7-49`; `none` means
that no approach was given -/
noncomputable def imKld (W : World) (p q : PyData) (approach : Option PyName) (cond : CondKw PyData) (kw : Kw) : Except Exc ℝ := do
  let f ← kldEntry W.lower approach
  let hqp ← globalOf W f [p, q] cond kw
  let hp ← globalOf (W.after 2) f [p] cond kw
  pure (hqp - hp)

/-- `isinstance(var, (list, ndarray))`, `composite_measures/jsd.py:60-61` -/
def PyData.isArrayLike : PyData → Bool
  | .intTup _ => false
  | .tup _ => false
  | _ => true

/-- `concatenate(data, axis=0)` of the kernel branch, evaluated before an estimator is built, `composite_measures/jsd.py:102` -/
def jsdPool (data : List PyData) : Except Exc Unit :=
  match data.mapM PyData.toKVar with
  | some vs => (concatVars vs).map (fun _ => ())
  | none => .ok ()

/-- the computation of `jensen_shannon_divergence` on estimators with the parameters of `e`, `composite_measures/jsd.py:84-105` -/
noncomputable def jsdValue (W : World) (data : List PyData) (e : Est) : Option (Except Exc ℝ) := do
  let b ← e.get "base" PyVal.toBase
  match e.cls.fam with
  | .kernel => do
    let vs ← data.mapM PyData.toKVar
    let cfg ← e.kde W
    some (kernelJsd vs cfg b)
  | .ordinal => do
    let xs ← data.mapM PyData.toSeries
    let p ← e.ord
    some (ordJsd W.quick xs p b)
  | _ => do
    let c ← e.dclass
    let xs ← data.mapM PyData.toEInput
    some (jsdDiscrete c b xs)

/-- `im.jensen_shannon_divergence(*data, approach=…, **kwargs)`, `composite_measures/jsd.py:19-109`.  All estimators of
one call get the same keyword arguments, so that the first one built decides about a TypeError.  Without data no
estimator is built: `sum(()) / 0` is a ZeroDivisionError, `concatenate(())` a ValueError. -/
noncomputable def imJsd (W : World) (oj : Est → List PyData → Except Exc ℝ) (data : List PyData) (approach : PyName)
    (cond : CondKw PyData) (kw : Kw) : Except Exc ℝ := do
  let f ← jsdEntry W.lower approach (data.map PyData.isArrayLike)
  match data with
  | [] => .error (if f = .kernel then .valueError else .zeroDivisionError)
  | x :: _ => do
    if f = .kernel then jsdPool data
    let e ← buildEst W { cls := ⟨.h, f⟩, data := [x], cond := cond, kw := kw }
    (jsdValue W data e).getD (oj e data)

end Verif
