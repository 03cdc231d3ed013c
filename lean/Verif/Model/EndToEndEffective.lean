import Verif.Model.EndToEndTest

/-!
# The effective value end to end: `im.estimator(…).effective_val(method)`
-/

namespace Verif

section
variable {G : Type} (E : TestEnv G) (W : World) (m : Option String) (g : G)

/-- `effective_val` of a transfer-entropy object, `estimators/mixins.py:505-517` -/
noncomputable def TEObj.effective (f : TEObj) : Except Exc ℝ :=
  (effectiveValTE (fun fl g => ((f (W.withDraw (E.normal g)) (teRandom E.rng fl g)).map CalcRes.scalar, E.next g))
    (fun _ => .error .attributeError) E.cfg m ⟨{ rng := g }, none, none⟩).1

/-- the same of a conditional transfer-entropy object, whose `_calculate` does not read the flags, `estimators/mixins.py:505-517` -/
noncomputable def CTEObj.effective (f : CTEObj) : Except Exc ℝ :=
  (effectiveValTE (fun _ g => ((f (W.withDraw (E.normal g))).map CalcRes.scalar, E.next g))
    (fun _ => .error .attributeError) E.cfg m ⟨{ rng := g }, none, none⟩).1

/-- `effective_val` of a built estimator: only the transfer-entropy classes inherit `EffectiveValueMixin`; on any other object the attribute does not
exist, but its constructor has run before, `estimators/base.py:280, 438, 586, 748-750, 946-948`.  `none`: outside the modelled fragment. -/
noncomputable def Est.effective (e : Est) : Option (Except Exc ℝ) :=
  match e.cls.kind with
  | .h => some (.error .attributeError)
  | .mi => (e.miObj W).map (fun r => r >>= fun _ => .error .attributeError)
  | .cmi => (e.cmiObj W).map (fun r => r >>= fun _ => .error .attributeError)
  | .te => (e.teObj W).map (fun r => r >>= TEObj.effective E W m g)
  | .cte => (e.cteObj W).map (fun r => r >>= CTEObj.effective E W m g)

/-- `im.estimator(*data, cond=…, measure=…, approach=…, **kwargs).effective_val(method)` on a generator in state `g`,
`estimators/functional.py:578-787`, `estimators/mixins.py:505-517` -/
noncomputable def imEffective (data : List PyData) (c : Option PyData) (measure approach : PyName) (kw : Kw) : Option (Except Exc ℝ) :=
  match callEstimator W.lower PyVal.int data c measure approach kw with
  | .error e => some (.error e)
  | .ok call =>
    match buildEst W call with
    | .error e => some (.error e)
    | .ok e => e.effective E W m g

end

end Verif
