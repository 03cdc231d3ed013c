import Verif.Lemmas.EndToEnd
import Verif.Spec.Bias
import Verif.Spec.Ctor
import Verif.Spec.BiasInfo

/-!
# Specification: what a well-formed call of a public function is, and the formulas of the discrete entropy estimators
-/

namespace Verif

/-- A call with approach name `a` of estimator family `f` for measure `k`, with documented keyword arguments only, whose
base (given, or configured when the package was imported) is `b`. -/
structure Call (W : World) (k : Kind) (f : Fam) (a : PyName) (kw : Kw) (b : Base) : Prop where
  name : Names W.lower k a f
  accepted : Only (acceptedKw W.b0 ⟨k, f⟩) kw
  base : (kwOr kw "base" W.b0).toBase = some b

/-- `src_hist_len = l`, `dest_hist_len = k`, `step_size = s` (given, or the default 1), and neither propagation time nor
offset -/
structure History (kw : Kw) (l k s : Nat) : Prop where
  src : kwOr kw "src_hist_len" (.int 1) = .int l
  dest : kwOr kw "dest_hist_len" (.int 1) = .int k
  step : kwOr kw "step_size" (.int 1) = .int s
  prop : kwOr kw "prop_time" (.int 0) = .int 0
  offset : kwOr kw "offset" .none = .none

/-- the variables are not shifted and not normalised -/
structure Plain (kw : Kw) : Prop where
  offset : kwOr kw "offset" (.int 0) = .int 0
  normalize : kwOr kw "normalize" (.bool false) = .bool false

/-- a continuous variable as a Python array -/
def PyData.ofKVar : KVar → PyData
  | .one xs => .reals xs
  | .two a => .mat a

/-- keyword arguments from a list of pairs -/
def kwList (l : List (String × PyVal)) : Kw := fun k => l.lookup k

namespace Spec

/-- The published formulas of the parameter-free discrete entropy estimators (in nats). -/
noncomputable def entropyFormula : Fam → List Int → ℝ
  | .discrete, xs => entropy xs
  | .millerMadow, xs => entropy xs + ((xs.toFinset.card : ℝ) - 1) / (2 * xs.length)
  | .grassberger, xs => grassberger xs
  | .chaoShen, xs => chaoShen xs
  | .chaoWangJost, xs => chaoWangJost xs
  | .shrink, xs => shrink xs
  | .zhang, xs => zhang xs
  | .bonachela, xs => bonachela xs
  | _, _ => 0

/-- the families of `entropyFormula` -/
def simpleFams : List Fam :=
  [.discrete, .millerMadow, .grassberger, .chaoShen, .chaoWangJost, .shrink, .zhang, .bonachela]

/-- the parameter-free bias-corrected families and their method -/
inductive FamMethod : Fam → Method → Prop
  | grassberger : FamMethod .grassberger .grassberger
  | chaoShen : FamMethod .chaoShen .chaoShen
  | chaoWangJost : FamMethod .chaoWangJost .chaoWangJost
  | shrink : FamMethod .shrink .shrink
  | zhang : FamMethod .zhang .zhang
  | bonachela : FamMethod .bonachela .bonachela

end Spec

/-- the public functions of the functional interface -/
inductive PubFn
  | entropy | crossEntropy | mutualInformation | conditionalMutualInformation | transferEntropy | conditionalTransferEntropy

/-- call a public function -/
noncomputable def PubFn.run (W : World) : PubFn → List PyData → PyName → CondKw PyData → Kw → Except Exc ℝ
  | .entropy => imEntropy W
  | .crossEntropy => imCrossEntropy W
  | .mutualInformation => imMI W
  | .conditionalMutualInformation => imCMI W
  | .transferEntropy => imTE W
  | .conditionalTransferEntropy => imCTE W

/-- the measure a public function computes; mutual information and transfer entropy become conditional when `cond` is given -/
def PubFn.kind : PubFn → CondKw PyData → Kind
  | .entropy, _ => .h
  | .crossEntropy, _ => .h
  | .mutualInformation, .val _ => .cmi
  | .mutualInformation, _ => .mi
  | .conditionalMutualInformation, _ => .cmi
  | .transferEntropy, .val _ => .cte
  | .transferEntropy, _ => .te
  | .conditionalTransferEntropy, _ => .cte

/-- the arguments a public function takes: the number of series, and whether a condition is given -/
def PubFn.Takes : PubFn → List PyData → CondKw PyData → Prop
  | .entropy, _, _ => True
  | .crossEntropy, data, _ => 2 ≤ data.length
  | .mutualInformation, data, _ => 2 ≤ data.length
  | .conditionalMutualInformation, data, c => c.isVal = true ∧ 2 ≤ data.length
  | .transferEntropy, data, _ => data.length = 2
  | .conditionalTransferEntropy, data, c => c.isVal = true ∧ data.length = 2

/-- the keyword arguments of a transfer-entropy call, besides `prop_time`, `offset` and `step_size`, are of the types this model
reads (for example `k` an integer, `kernel` a known kernel name) -/
def Readable (W : World) (f : Fam) (kw : Kw) : Prop :=
  (∃ v, (kwOr kw "base" W.b0).toBase = some v) ∧ (∃ v, (kwOr kw "src_hist_len" (.int 1)).toArg = some v) ∧
  (∃ v, (kwOr kw "dest_hist_len" (.int 1)).toArg = some v) ∧ (∃ v, (kwOr kw "cond_hist_len" (.int 1)).toArg = some v) ∧
  match f with
  | .bayes => (∃ v, (kw "alpha").bind PyVal.toAlpha = some v) ∧ ∃ v, (kwOr kw "K" .none).toOptArg = some v
  | .ansb => ∃ v, (kwOr kw "undersampled" (.num (1 / 10))).toNum = some v
  | .nsb => ∃ v, (kwOr kw "K" .none).toOptArg = some v
  | .ordinal => (∃ v, (kw "embedding_dim").bind PyVal.toArg = some v) ∧ ∃ v, (kwOr kw "stable" (.bool false)).toBool = some v
  | .kernel => (∃ v, (kwOr kw "bandwidth" .none).toArg = some v) ∧ (∃ v, PyVal.toKernel W.eig (kwOr kw "kernel" .none) = some v) ∧
      ∃ v, (kwOr kw "workers" (.int 1)).toInt = some v
  | .metric => (∃ v, (kwOr kw "k" (.int 4)).toNat = some v) ∧ (∃ v, (kwOr kw "ksg_id" (.int 1)).toInt = some v) ∧
      (∃ v, (kwOr kw "noise_level" (.num (1 / 10 ^ 8))).toNoise = some v) ∧ ∃ v, (kwOr kw "minkowski_p" .inf).toPNorm = some v
  | .renyi => (∃ v, (kwOr kw "k" (.int 4)).toArg = some v) ∧ (∃ v, (kwOr kw "alpha" .none).toArg = some v) ∧
      ∃ v, (kwOr kw "noise_level" (.num (1 / 10 ^ 8))).toNoise = some v
  | .tsallis => (∃ v, (kwOr kw "k" (.int 4)).toArg = some v) ∧ (∃ v, (kwOr kw "q" .none).toArg = some v) ∧
      ∃ v, (kwOr kw "noise_level" (.num (1 / 10 ^ 8))).toNoise = some v
  | _ => True

/-- the families for integer data -/
def Spec.discreteFams : List Fam := [.discrete, .millerMadow, .grassberger, .chaoShen, .chaoWangJost, .shrink, .zhang, .bonachela,
  .bayes, .ansb, .nsb]

/-- the families for real data -/
def Spec.continuousFams : List Fam := [.ordinal, .kernel, .metric, .renyi, .tsallis]

/-- `kw` asks for a propagation time of `p` steps of `s` samples (as `prop_time` or as `offset`); `kw'` is the same call without
it -/
structure Lag (kw kw' : Kw) (p : Int) (s : Nat) : Prop where
  same : ∀ r, r ≠ "prop_time" → r ≠ "offset" → kw' r = kw r
  noProp : kw' "prop_time" = none
  noOffset : kw' "offset" = none
  step : kwOr kw "step_size" (.int 1) = .int s
  lag : (kwOr kw "prop_time" (.int 0) = .int p ∧ kwOr kw "offset" .none = .none) ∨
    (kwOr kw "prop_time" (.int 0) = .int 0 ∧ kwOr kw "offset" .none = .int p)

/-- the source as it meets the destination after the lag: `source[t]` is paired with `dest[t + p s]` -/
def Spec.lagSource {α : Type} (p : Int) (s : Nat) (x : List α) : List α :=
  if 0 ≤ p then x.take (x.length - p.natAbs * s) else x.drop (p.natAbs * s)

def Spec.lagDest {α : Type} (p : Int) (s : Nat) (y : List α) : List α :=
  if 0 ≤ p then y.drop (p.natAbs * s) else y.take (y.length - p.natAbs * s)

end Verif
