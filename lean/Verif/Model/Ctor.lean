import Verif.Model.Dispatch
import Mathlib.Data.Real.Basic

/-!
# Model of the constructors: how keyword arguments travel through the class hierarchy

Every estimator class is built by a chain of `__init__` methods along its method resolution order: the class (or its
`Base…` class), the mixins, the measure's abstract base class, `Estimator`.  Each of them has named keyword
parameters, some with a default, possibly a `**kwargs`, and calls the next one with some of its parameters by name and
the rest of `**kwargs`.  What is modelled here is that chain: which keyword arguments are accepted, which value every
parameter gets, and the `TypeError`s of Python's argument binding.

Simplification: the constructors check the data between the links of the chain; here all the binding comes first, so
when a call has both an unknown keyword and invalid data the exception may be of the other kind.
-/

namespace Verif

/-- a value passed as keyword argument -/
inductive PyVal
  | none
  | bool (b : Bool)
  | int (n : Int)
  | num (x : ℝ)
  | inf
  | str (s : String)
  /-- an array or sequence -/
  | arr

/-- keyword arguments of a call: a finite or infinite dictionary -/
abbrev Kw := String → Option PyVal

/-- one `__init__` of the chain -/
structure Layer where
  /-- parameters without default -/
  req : List String := []
  /-- parameters with default -/
  opt : List (String × PyVal) := []
  /-- has `**kwargs` (always handed on) -/
  varkw : Bool := false
  /-- own parameters handed on by name -/
  send : List String := []
  /-- arguments handed on with a fixed value (`normalize=False`) -/
  fixed : List (String × PyVal) := []
  /-- names removed from `**kwargs` before it is handed on (`kwargs.pop`) -/
  drop : List String := []

/-- the parameter names of a layer -/
def Layer.names (l : Layer) : List String := l.req ++ l.opt.map (fun p => p.1)

/-- the names a layer hands on explicitly -/
def Layer.sent (l : Layer) : List String := l.send ++ l.fixed.map (fun p => p.1)

/-- the values of the parameters of a layer: the argument, else the default -/
def Layer.bound (l : Layer) (kw : Kw) : Kw :=
  fun k => if k ∈ l.names then (kw k).or (l.opt.lookup k) else none

/-- what is left in `**kwargs` when the next `__init__` is called -/
def Layer.rest (l : Layer) (kw : Kw) : Kw :=
  fun k => if k ∈ l.names ∨ k ∈ l.drop then none else kw k

/-- the keyword arguments of the call of the next `__init__` -/
def Layer.forward (l : Layer) (kw : Kw) : Kw :=
  fun k => if k ∈ l.send then l.bound kw k
    else match l.fixed.lookup k with
      | some v => some v
      | none => l.rest kw k

open Classical in
/-- Python's argument binding of one `__init__` and of the call it makes: a missing parameter, an unexpected keyword
argument, and a keyword given twice (by name and inside `**kwargs`) are `TypeError`s. -/
noncomputable def Layer.bind (l : Layer) (kw : Kw) : Except Exc (Kw × Kw) :=
  if ∃ k ∈ l.req, kw k = none then .error .typeError
  else if l.varkw = false ∧ ∃ k, kw k ≠ none ∧ k ∉ l.names then .error .typeError
  else if ∃ k ∈ l.sent, l.rest kw k ≠ none then .error .typeError
  else .ok (l.bound kw, l.forward kw)

/-- the whole chain: the values of all parameters met.  A name bound by several constructors is stored by the innermost one
(`self.offset = offset`, `self.cond_hist_len = cond_hist_len`, … in the base classes, `estimators/base.py:510-516`, `660-667`,
`835-844`, `1010-1018`), so a value that is not handed on is replaced by the inner default. -/
noncomputable def runLayers : List Layer → Kw → Except Exc Kw
  | [], _ => .ok (fun _ => none)
  | l :: ls, kw => do
    let b ← l.bind kw
    let inner ← runLayers ls b.2
    pure (fun k => (inner k).or (b.1 k))

/-! ## The links -/

section
variable (b0 : PyVal)

/-- `Estimator.__init__`, `estimators/base.py:67-71`; `b0` is the default of `base`, `Config.get("base")` when the
module was imported -/
def estimatorLayer : Layer := { opt := [("base", b0)] }

/-- `EntropyEstimator.__init__`, `estimators/base.py:282-340` -/
def entropyLayer : Layer := { opt := [("base", b0)], send := ["base"] }

/-- `DiscreteHEstimator.__init__`, `estimators/base.py:1128-1159` -/
def discreteHLayer : Layer := { varkw := true }

/-- `RandomGeneratorMixin.__init__`, `estimators/mixins.py:32-35` -/
def seedLayer : Layer := { opt := [("seed", .none)], varkw := true }

/-- `StatisticalTestingMixin.__init__` and `EffectiveValueMixin.__init__`, `DiscreteMIMixin.__init__`,
`estimators/mixins.py:69-84`, `500-503`, `367-368`: everything is handed on -/
def passLayer : Layer := { varkw := true }

/-- `WorkersMixin.__init__`, `estimators/mixins.py:530-536` -/
def workersLayer : Layer := { opt := [("workers", .int 1)], varkw := true }

/-- `MutualInformationEstimator.__init__`, `estimators/base.py:479-516` -/
def miLayer : Layer :=
  { opt := [("offset", .int 0), ("normalize", .bool false), ("base", b0)], varkw := true, send := ["base"] }

/-- `ConditionalMutualInformationEstimator.__init__`, `estimators/base.py:637-667` -/
def cmiLayer : Layer :=
  { opt := [("cond", .none), ("normalize", .bool false), ("offset", .none), ("base", b0)], varkw := true,
    send := ["base"] }

/-- `TransferEntropyEstimator.__init__`, `estimators/base.py:794-844` -/
def teLayer : Layer :=
  { opt := [("prop_time", .int 0), ("src_hist_len", .int 1), ("dest_hist_len", .int 1), ("step_size", .int 1),
            ("offset", .none), ("base", b0)], varkw := true, send := ["base"] }

/-- `ConditionalTransferEntropyEstimator.__init__`, `estimators/base.py:979-1018` -/
def cteLayer : Layer :=
  { opt := [("cond", .none), ("src_hist_len", .int 1), ("dest_hist_len", .int 1), ("cond_hist_len", .int 1),
            ("step_size", .int 1), ("prop_time", .none), ("offset", .none), ("base", b0)], varkw := true,
    send := ["base"] }

/-- the classes whose own file defines the entropy constructor: `entropy/ansb.py:67-77`, `entropy/bayes.py:66-90`,
`entropy/kernel.py:126-151`, `entropy/kozachenko_leonenko.py:127-170`, `entropy/nsb.py:83-86`,
`entropy/ordinal.py:64-113`, `entropy/renyi.py:47-73`, `entropy/tsallis.py:45-71`; the others inherit
`DiscreteHEstimator.__init__`. -/
noncomputable def entropyLayers (f : Fam) : List Layer :=
  let tail := [entropyLayer b0, estimatorLayer b0]
  match f with
  | .ansb => { opt := [("K", .none), ("undersampled", .num (1 / 10)), ("base", b0)], send := ["base"] }
      :: discreteHLayer :: tail
  | .bayes => { req := ["alpha"], opt := [("K", .none), ("base", b0)], send := ["base"] } :: discreteHLayer :: tail
  | .nsb => { opt := [("K", .none), ("base", b0)], send := ["base"] } :: discreteHLayer :: tail
  | .kernel => { req := ["bandwidth", "kernel"], opt := [("workers", .int 1), ("base", b0)],
                 send := ["workers", "base"] } :: workersLayer :: tail
  | .metric => { opt := [("k", .int 4), ("ksg_id", .int 1), ("noise_level", .num (1 / 10 ^ 10)), ("minkowski_p", .inf),
                         ("base", b0)], send := ["base"] } :: seedLayer :: tail
  | .ordinal => { req := ["embedding_dim"], opt := [("step_size", .int 1), ("stable", .bool false), ("base", b0)],
                  send := ["base"] } :: tail
  | .renyi => { opt := [("k", .int 4), ("alpha", .none), ("base", b0)], send := ["base"] } :: tail
  | .tsallis => { opt := [("k", .int 4), ("q", .none), ("base", b0)], send := ["base"] } :: tail
  | _ => discreteHLayer :: tail

/-- `cond=cond` is handed on only when it is not `None`, e.g. `mutual_information/ansb.py:64-67` -/
def condSend (given : Bool) : List String := if given then ["cond"] else []

/-- the `Base…MIEstimator.__init__` of every module of `mutual_information/`: `ansb.py:37-77`, `bayes.py:39-91`,
`nsb.py:36-75`, `kernel.py:47-109`, `kraskov_stoegbauer_grassberger.py:50-118`, `ordinal.py:64-143`, `renyi.py:44-111`,
`tsallis.py:44-114`, `discrete.py:41-76`, `miller_madow.py:39-69`; the remaining ones (`bonachela.py`, `chao_shen.py`,
`chao_wang_jost.py`, `grassberger.py`, `shrink.py`, `zhang.py`, lines 35-68) have no parameters of their own.  `given`:
`cond` is not `None`. -/
noncomputable def miClassLayers (given : Bool) (f : Fam) : List Layer :=
  let c : String × PyVal := ("cond", .none)
  let o : String × PyVal := ("offset", .int 0)
  let n : String × PyVal := ("normalize", .bool false)
  let b : String × PyVal := ("base", b0)
  let s := condSend given ++ ["offset", "base"]
  match f with
  | .ansb => [{ opt := [c, ("undersampled", .num (1 / 10)), o, b], varkw := true, send := s }]
  | .bayes => [{ req := ["alpha"], opt := [c, ("K", .none), o, b], varkw := true, send := s }]
  | .nsb => [{ opt := [c, ("K", .none), o, b], varkw := true, send := s }]
  | .kernel => [{ opt := [c, ("bandwidth", .none), ("kernel", .none), o, ("workers", .int 1), n, b], varkw := true,
                  send := s ++ ["workers", "normalize"] }, workersLayer]
  | .metric => [{ opt := [c, ("k", .int 4), ("ksg_id", .int 1), ("noise_level", .num (1 / 10 ^ 10)),
                          ("minkowski_p", .inf), o, n, b], varkw := true, send := s ++ ["normalize"] }]
  | .ordinal => [{ opt := [c, ("embedding_dim", .none), ("step_size", .int 1), ("stable", .bool false), o, b],
                   varkw := true, send := s, fixed := [("normalize", .bool false)], drop := ["step_size"] }]
  | .renyi => [{ opt := [c, ("k", .int 4), ("alpha", .none), ("noise_level", .num (1 / 10 ^ 8)), o, n, b],
                 varkw := true, send := s ++ ["normalize"], drop := ["step_size"] }]
  | .tsallis => [{ opt := [c, ("k", .int 4), ("q", .none), ("noise_level", .num (1 / 10 ^ 8)), o, n, b],
                   varkw := true, send := s ++ ["normalize"], drop := ["step_size"] }]
  | .discrete => [{ opt := [c, o, b], varkw := true, send := s, fixed := [("normalize", .bool false)] }, passLayer]
  | .millerMadow => [{ opt := [c, o, b], varkw := true, send := s, fixed := [("normalize", .bool false)] }, passLayer]
  | _ => [{ opt := [c, o, b], varkw := true, send := s }]

/-- the keyword parameters every `Base…TEEstimator.__init__` shares, with their defaults, e.g.
`transfer_entropy/discrete.py:45-58` -/
def teCommon : List (String × PyVal) :=
  [("cond", .none), ("prop_time", .int 0), ("step_size", .int 1), ("src_hist_len", .int 1), ("dest_hist_len", .int 1),
   ("cond_hist_len", .int 1), ("offset", .none), ("base", b0)]

/-- what is handed on, e.g. `transfer_entropy/discrete.py:86-113`: with a condition also `cond` and `cond_hist_len` -/
def teSend (given : Bool) : List String :=
  (if given then ["cond", "cond_hist_len"] else []) ++
    ["prop_time", "src_hist_len", "dest_hist_len", "step_size", "offset", "base"]

/-- the `Base…TEEstimator.__init__` of every module of `transfer_entropy/`: `ansb.py:45-117`, `bayes.py:52-131`,
`nsb.py:44-114`, `kernel.py:53-125`, `kraskov_stoegbauer_grassberger.py:56-139`, `ordinal.py:65-164`, `renyi.py:59-141`,
`tsallis.py:60-143`; the remaining ones (`discrete.py:45-114`, `miller_madow.py:43-109` and lines 43-108 of the other
files) have no parameters of their own. -/
noncomputable def teClassLayers (given : Bool) (f : Fam) : List Layer :=
  let s := teSend given
  match f with
  | .ansb => [{ opt := ("undersampled", .num (1 / 10)) :: teCommon b0, varkw := true, send := s }]
  | .bayes => [{ req := ["alpha"], opt := ("K", .none) :: teCommon b0, varkw := true, send := s }]
  | .nsb => [{ opt := ("K", .none) :: teCommon b0, varkw := true, send := s }]
  | .kernel => [{ opt := ("bandwidth", .none) :: ("kernel", .none) :: ("workers", .int 1) :: teCommon b0,
                  varkw := true, send := s ++ ["workers"] }, workersLayer]
  | .metric => [{ opt := ("k", .int 4) :: ("ksg_id", .int 1) :: ("noise_level", .num (1 / 10 ^ 8)) ::
                         ("minkowski_p", .inf) :: teCommon b0, varkw := true, send := s }]
  | .ordinal => [{ req := ["embedding_dim"], opt := ("stable", .bool false) :: teCommon b0, varkw := true, send := s }]
  | .renyi => [{ opt := ("k", .int 4) :: ("alpha", .none) :: ("noise_level", .num (1 / 10 ^ 8)) :: teCommon b0,
                 varkw := true, send := s }]
  | .tsallis => [{ opt := ("k", .int 4) :: ("q", .none) :: ("noise_level", .num (1 / 10 ^ 8)) :: teCommon b0,
                   varkw := true, send := s }]
  | _ => [{ opt := teCommon b0, varkw := true, send := s }]

/-- the chain of `__init__` methods of a class along its method resolution order.  For the measures with significance
tests the abstract base class is followed by `StatisticalTestingMixin`, `RandomGeneratorMixin` (and, for transfer
entropy, preceded by `EffectiveValueMixin` in that order) and `Estimator`; class statements at
`estimators/base.py:438`, `586`, `748`, `946`. -/
noncomputable def ctorLayers (c : EstClass) (given : Bool) : List Layer :=
  match c.kind with
  | .h => entropyLayers b0 c.fam
  | .mi => miClassLayers b0 given c.fam ++ [miLayer b0, passLayer, seedLayer, estimatorLayer b0]
  | .cmi => miClassLayers b0 given c.fam ++ [cmiLayer b0, passLayer, seedLayer, estimatorLayer b0]
  | .te => teClassLayers b0 given c.fam ++ [teLayer b0, passLayer, passLayer, seedLayer, estimatorLayer b0]
  | .cte => teClassLayers b0 given c.fam ++ [cteLayer b0, passLayer, passLayer, seedLayer, estimatorLayer b0]

/-- the keyword arguments of a class call, the condition included -/
def callKw {D : Type} (c : CtorCall D PyVal) : Kw :=
  fun k => if k = "cond" then
      (match c.cond with | .absent => none | .none => some .none | .val _ => some .arr)
    else c.kw k

/-- the parameters of the estimator a class call builds, before the checks on data and parameters.  `*data` takes any
number of variables; the transfer-entropy classes have two positional parameters (`transfer_entropy/discrete.py:45-48`),
another number of them is a TypeError.  The conditional classes raise ValueError without a condition
(`estimators/base.py:647-648`, `995-996`). -/
noncomputable def ctorParams {D : Type} (c : CtorCall D PyVal) : Except Exc Kw := do
  if (c.cls.kind = .te ∨ c.cls.kind = .cte) ∧ c.data.length ≠ 2 then .error .typeError
  else
    let p ← runLayers (ctorLayers b0 c.cls c.cond.isVal) (callKw c)
    if (c.cls.kind = .cmi ∨ c.cls.kind = .cte) ∧ c.cond.isVal = false then .error .valueError else pure p

end

end Verif
