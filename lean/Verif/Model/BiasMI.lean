import Verif.Model.BiasCorrected
import Verif.Model.TE

/-!
# Model of the bias-corrected mutual-information and transfer-entropy classes

`infomeasure/estimators/mutual_information/{grassberger,chao_shen,chao_wang_jost,shrink,zhang,bonachela,
bayes,ansb}.py` and the files of the same names in `infomeasure/estimators/transfer_entropy/`.  Every
class runs the constructor of its base class, checks its own parameters and delegates to the generic
entropy combination with the entropy class of the same name.  (NSB is in
`Model/Nsb.lean`; Miller–Madow has its own implementation, `discreteMI`, `discreteTE`.)  The keyword arguments
`normalize` is not modelled for these classes; `Model/BiasMIVec.lean` has arrays of two dimensions.
-/

namespace Verif

/-- the class with the keyword arguments it takes besides `base`, `offset` and the embedding: `alpha` and
`K` of Bayes (`mutual_information/bayes.py:39-48`, `transfer_entropy/bayes.py`), `undersampled` of ANSB
(`mutual_information/ansb.py:37-45`, `transfer_entropy/ansb.py`). `K = none` is Python's `None`. -/
inductive BiasClass
  | grassberger
  | chaoShen
  | chaoWangJost
  | shrink
  | zhang
  | bonachela
  | bayes (alpha : AlphaArg) (K : Option PyArg)
  | ansb (undersampled : ℝ)

open Classical in
/-- the parameter checks after the base-class constructor: `mutual_information/bayes.py:85-91`,
`mutual_information/ansb.py:74-77`, and the same lines of the transfer-entropy files. -/
noncomputable def BiasClass.check (c : BiasClass) : Except Exc Unit :=
  match c with
  | .bayes alpha K =>
    match alpha with
    | .other => .error .valueError
    | _ =>
      match K with
      | none => .ok ()
      | some (.int k) => if k ≤ 0 then .error .valueError else .ok ()
      | some _ => .error .valueError
  | .ansb u => if u < 0 then .error .valueError else .ok ()
  | _ => .ok ()

/-- the entropy class and the keyword arguments `_calculate` passes to it, e.g.
`mutual_information/bayes.py:129-141, 181-192`, `mutual_information/ansb.py:111-123,159-170` (ANSB never passes `K`;
`undersampled` only triggers a warning). -/
noncomputable def BiasClass.est (c : BiasClass) (b : Base) : HEst :=
  match c with
  | .grassberger => grassbergerH b
  | .chaoShen => chaoShenH b
  | .chaoWangJost => chaoWangJostH b
  | .shrink => shrinkH b
  | .zhang => zhangH b
  | .bonachela => bonachelaH b
  | .bayes alpha K =>
    bayesH alpha (match K with | some (.int k) => some k.toNat | _ => none) b
  | .ansb _ => ansbH none b

/-- `XMIEstimator(*data, offset=…, base=…, …).global_val()`: `__init__` of the classes, then `_calculate`:
`mutual_information/grassberger.py:35-68,100-112`, `mutual_information/chao_shen.py:35-68,100-112`,
`mutual_information/chao_wang_jost.py:35-68,100-112`, `mutual_information/shrink.py:35-68,100-112`,
`mutual_information/zhang.py:35-68,100-112`, `mutual_information/bonachela.py:35-68,100-112`,
`mutual_information/bayes.py:39-91,129-141`, `mutual_information/ansb.py:37-77,111-123`. -/
noncomputable def biasMI (c : BiasClass) (cols : List (List Int)) (offset : Option Int) (b : Base) :
    Except Exc ℝ := do
  let _ ← miInit cols offset
  c.check
  genericMI (c.est b) cols offset

/-- `XCMIEstimator(*data, cond=…, offset=…, base=…, …).global_val()`: the same `__init__`, then `_calculate`:
`mutual_information/grassberger.py:148-159`, `mutual_information/chao_shen.py:148-159`,
`mutual_information/chao_wang_jost.py:148-159`, `mutual_information/shrink.py:146-157`,
`mutual_information/zhang.py:146-157`, `mutual_information/bonachela.py:148-159`,
`mutual_information/bayes.py:181-192`, `mutual_information/ansb.py:159-170`. -/
noncomputable def biasCMI (c : BiasClass) (cols : List (List Int)) (cond : List Int) (offset : Option Int)
    (b : Base) : Except Exc ℝ := do
  let _ ← cmiInit cols (some cond) offset
  c.check
  genericCMI (c.est b) cols cond offset

/-- `XTEEstimator(source, dest, …).global_val()`: `transfer_entropy/grassberger.py:43-108,146-151`,
`transfer_entropy/chao_shen.py:43-108,146-151`, `transfer_entropy/chao_wang_jost.py:43-108,146-151`,
`transfer_entropy/shrink.py:43-108,146-151`, `transfer_entropy/zhang.py:43-108,146-151`,
`transfer_entropy/bonachela.py:43-108,146-151`, `transfer_entropy/bayes.py:52-131,175-180`,
`transfer_entropy/ansb.py:45-117,157-162`. -/
noncomputable def biasTE (c : BiasClass) (source dest : List Int) (p : TEParams)
    (propTime offset : Option PyArg) (b : Base) (rnd : SrcRandom := {}) : Except Exc ℝ := do
  let _ ← teInit source dest propTime offset p.step
  c.check
  genericTE (c.est b) source dest p propTime offset rnd

/-- `XCTEEstimator(source, dest, cond=…, …).global_val()`: the same `__init__`, then `transfer_entropy/grassberger.py:187-192`,
`transfer_entropy/chao_shen.py:187-192`, `transfer_entropy/chao_wang_jost.py:187-192`, `transfer_entropy/shrink.py:185-190`,
`transfer_entropy/zhang.py:185-190`, `transfer_entropy/bonachela.py:187-192`, `transfer_entropy/bayes.py:220-225`,
`transfer_entropy/ansb.py:198-203`. -/
noncomputable def biasCTE (c : BiasClass) (source dest : List Int) (cond : Option (List Int))
    (p : TEParams) (condHist : PyArg) (propTime offset : Option PyArg) (b : Base) : Except Exc ℝ := do
  let _ ← cteInit source dest cond propTime offset
  c.check
  genericCTE (c.est b) source dest cond p condHist propTime offset

end Verif
