import Verif.Np

/-!
# Model of the functional interface: name dispatch and the `estimator` factory

`infomeasure/estimators/functional.py`.

What is modelled is which estimator class is called with which arguments, and which exception is raised
before that.  The estimator classes themselves are a parameter (`Ctor`); the other modules model them.
-/

namespace Verif

/-- Python's `str.lower`.  Its effect on text outside ASCII is not modelled: on ASCII text it lowers the
letters A–Z. -/
structure PyLower where
  run : String → String
  ascii : ∀ s : String, (∀ c ∈ s.toList, c.toNat < 128) → (run s).toList = s.toList.map Char.toLower

/-- a string argument as received: `None`, a `str`, or another object -/
inductive PyName
  | none
  | str (s : String)
  | other

/-- which measure an estimator class estimates (the package and suffix of the class path) -/
inductive Kind
  | h | mi | cmi | te | cte
  deriving DecidableEq

/-- the module of the estimator class; `metric` is the Kozachenko–Leonenko entropy and the KSG estimators -/
inductive Fam
  | ansb | bayes | bonachela | chaoShen | chaoWangJost | discrete | grassberger | kernel | metric
  | millerMadow | nsb | ordinal | renyi | shrink | tsallis | zhang
  deriving DecidableEq

/-- an estimator class -/
structure EstClass where
  kind : Kind
  fam : Fam
  deriving DecidableEq

/-- a dictionary from names to class paths -/
abbrev ClassTable := List (String × EstClass)

/-- `entropy_estimators`, `estimators/functional.py:14-43` -/
def entropyTable : ClassTable :=
  [("ansb", ⟨.h, .ansb⟩), ("bayes", ⟨.h, .bayes⟩), ("bonachela", ⟨.h, .bonachela⟩),
   ("chao_shen", ⟨.h, .chaoShen⟩), ("cs", ⟨.h, .chaoShen⟩), ("chao_wang_jost", ⟨.h, .chaoWangJost⟩),
   ("cwj", ⟨.h, .chaoWangJost⟩), ("discrete", ⟨.h, .discrete⟩), ("grassberger", ⟨.h, .grassberger⟩),
   ("kernel", ⟨.h, .kernel⟩), ("metric", ⟨.h, .metric⟩), ("kl", ⟨.h, .metric⟩),
   ("miller_madow", ⟨.h, .millerMadow⟩), ("mm", ⟨.h, .millerMadow⟩), ("nsb", ⟨.h, .nsb⟩),
   ("renyi", ⟨.h, .renyi⟩), ("shrink", ⟨.h, .shrink⟩), ("js", ⟨.h, .shrink⟩),
   ("ordinal", ⟨.h, .ordinal⟩), ("symbolic", ⟨.h, .ordinal⟩), ("permutation", ⟨.h, .ordinal⟩),
   ("tsallis", ⟨.h, .tsallis⟩), ("zhang", ⟨.h, .zhang⟩)]

/-- `mi_estimators`, `estimators/functional.py:45-76` -/
def miTable : ClassTable :=
  [("ansb", ⟨.mi, .ansb⟩), ("bayes", ⟨.mi, .bayes⟩), ("bonachela", ⟨.mi, .bonachela⟩),
   ("chao_shen", ⟨.mi, .chaoShen⟩), ("chao_wang_jost", ⟨.mi, .chaoWangJost⟩),
   ("discrete", ⟨.mi, .discrete⟩), ("grassberger", ⟨.mi, .grassberger⟩), ("kernel", ⟨.mi, .kernel⟩),
   ("metric", ⟨.mi, .metric⟩), ("ksg", ⟨.mi, .metric⟩), ("miller_madow", ⟨.mi, .millerMadow⟩),
   ("mm", ⟨.mi, .millerMadow⟩), ("nsb", ⟨.mi, .nsb⟩), ("ordinal", ⟨.mi, .ordinal⟩),
   ("symbolic", ⟨.mi, .ordinal⟩), ("permutation", ⟨.mi, .ordinal⟩), ("renyi", ⟨.mi, .renyi⟩),
   ("shrink", ⟨.mi, .shrink⟩), ("tsallis", ⟨.mi, .tsallis⟩), ("zhang", ⟨.mi, .zhang⟩)]

/-- `cmi_estimators`, `estimators/functional.py:83-114` -/
def cmiTable : ClassTable :=
  [("ansb", ⟨.cmi, .ansb⟩), ("bayes", ⟨.cmi, .bayes⟩), ("bonachela", ⟨.cmi, .bonachela⟩),
   ("chao_shen", ⟨.cmi, .chaoShen⟩), ("chao_wang_jost", ⟨.cmi, .chaoWangJost⟩),
   ("discrete", ⟨.cmi, .discrete⟩), ("grassberger", ⟨.cmi, .grassberger⟩), ("kernel", ⟨.cmi, .kernel⟩),
   ("metric", ⟨.cmi, .metric⟩), ("ksg", ⟨.cmi, .metric⟩), ("miller_madow", ⟨.cmi, .millerMadow⟩),
   ("mm", ⟨.cmi, .millerMadow⟩), ("nsb", ⟨.cmi, .nsb⟩), ("ordinal", ⟨.cmi, .ordinal⟩),
   ("symbolic", ⟨.cmi, .ordinal⟩), ("permutation", ⟨.cmi, .ordinal⟩), ("renyi", ⟨.cmi, .renyi⟩),
   ("shrink", ⟨.cmi, .shrink⟩), ("tsallis", ⟨.cmi, .tsallis⟩), ("zhang", ⟨.cmi, .zhang⟩)]

/-- `te_estimators`, `estimators/functional.py:116-144` -/
def teTable : ClassTable :=
  [("ansb", ⟨.te, .ansb⟩), ("bayes", ⟨.te, .bayes⟩), ("bonachela", ⟨.te, .bonachela⟩),
   ("chao_shen", ⟨.te, .chaoShen⟩), ("chao_wang_jost", ⟨.te, .chaoWangJost⟩),
   ("discrete", ⟨.te, .discrete⟩), ("grassberger", ⟨.te, .grassberger⟩), ("kernel", ⟨.te, .kernel⟩),
   ("metric", ⟨.te, .metric⟩), ("ksg", ⟨.te, .metric⟩), ("miller_madow", ⟨.te, .millerMadow⟩),
   ("mm", ⟨.te, .millerMadow⟩), ("nsb", ⟨.te, .nsb⟩), ("ordinal", ⟨.te, .ordinal⟩),
   ("symbolic", ⟨.te, .ordinal⟩), ("permutation", ⟨.te, .ordinal⟩), ("renyi", ⟨.te, .renyi⟩),
   ("shrink", ⟨.te, .shrink⟩), ("tsallis", ⟨.te, .tsallis⟩), ("zhang", ⟨.te, .zhang⟩)]

/-- `cte_estimators`, `estimators/functional.py:146-176` -/
def cteTable : ClassTable :=
  [("ansb", ⟨.cte, .ansb⟩), ("bayes", ⟨.cte, .bayes⟩), ("bonachela", ⟨.cte, .bonachela⟩),
   ("chao_shen", ⟨.cte, .chaoShen⟩), ("chao_wang_jost", ⟨.cte, .chaoWangJost⟩),
   ("discrete", ⟨.cte, .discrete⟩), ("grassberger", ⟨.cte, .grassberger⟩), ("kernel", ⟨.cte, .kernel⟩),
   ("metric", ⟨.cte, .metric⟩), ("ksg", ⟨.cte, .metric⟩), ("miller_madow", ⟨.cte, .millerMadow⟩),
   ("mm", ⟨.cte, .millerMadow⟩), ("nsb", ⟨.cte, .nsb⟩), ("ordinal", ⟨.cte, .ordinal⟩),
   ("symbolic", ⟨.cte, .ordinal⟩), ("permutation", ⟨.cte, .ordinal⟩), ("renyi", ⟨.cte, .renyi⟩),
   ("shrink", ⟨.cte, .shrink⟩), ("tsallis", ⟨.cte, .tsallis⟩), ("zhang", ⟨.cte, .zhang⟩)]

/-- `mi_entropy_map`, `estimators/functional.py:78-81` -/
def miEntropyMap (s : String) : Option String :=
  if s = "ksg" then some "kl"
  else if (miTable.lookup s).isSome then some s
  else none

/-- `_get_estimator`, `estimators/functional.py:197-226`; the import of the class is its name. -/
def getEstimator (L : PyLower) (tbl : ClassTable) (name : PyName) : Except Exc EstClass :=
  match name with
  | .str s =>
    match tbl.lookup (L.run s) with
    | some c => .ok c
    | none => .error .valueError
  | _ => .error .valueError

/-- `get_estimator_class`, `estimators/functional.py:229-275`; a measure that is not a string has no
`lower`. -/
def getEstimatorClass (L : PyLower) (measure approach : PyName) : Except Exc EstClass :=
  match measure with
  | .none => .error .valueError
  | .other => .error .attributeError
  | .str m =>
    if L.run m ∈ ["entropy", "h"] then getEstimator L entropyTable approach
    else if L.run m ∈ ["mutual_information", "mi"] then getEstimator L miTable approach
    else if L.run m ∈ ["conditional_mutual_information", "cmi"] then getEstimator L cmiTable approach
    else if L.run m ∈ ["transfer_entropy", "te"] then getEstimator L teTable approach
    else if L.run m ∈ ["conditional_transfer_entropy", "cte"] then getEstimator L cteTable approach
    else .error .valueError

/-- the keyword argument `cond` of a call: not given, given as `None`, or given -/
inductive CondKw (D : Type)
  | absent
  | none
  | val (z : D)

/-- `kwargs.get("cond") is not None` -/
def CondKw.isVal {D : Type} : CondKw D → Bool
  | .val _ => true
  | _ => false

/-- a call of an estimator class: positional data, condition, other keyword arguments -/
structure CtorCall (D V : Type) where
  cls : EstClass
  data : List D
  cond : CondKw D
  kw : String → Option V

/-- the two kinds of argument of the decorator `_dynamic_estimator` -/
inductive DynMeasure
  | single (m : String)
  | pair (m mcond : String)

/-- the wrapper of `_dynamic_estimator`, `estimators/functional.py:278-322`: which class is injected -/
def dynEstimator {D : Type} (L : PyLower) (measure : DynMeasure) (approach : PyName) (cond : CondKw D) :
    Except Exc EstClass :=
  match approach with
  | .none => .error .valueError
  | a =>
    match measure with
    | .single m => getEstimatorClass L (.str m) a
    | .pair m mc => if cond.isVal then getEstimatorClass L (.str mc) a else getEstimatorClass L (.str m) a

section
variable {D V E R : Type}

/-- `entropy`, `estimators/functional.py:325-390`: the class call made before `.result()` -/
def callEntropy (L : PyLower) (data : List D) (approach : PyName) (cond : CondKw D)
    (kw : String → Option V) : Except Exc (CtorCall D V) := do
  let c ← dynEstimator L (.single "entropy") approach cond
  pure { cls := c, data := data, cond := cond, kw := kw }

/-- `cross_entropy`, `estimators/functional.py:393-404` -/
def callCrossEntropy (L : PyLower) (data : List D) (approach : PyName) (cond : CondKw D)
    (kw : String → Option V) : Except Exc (CtorCall D V) :=
  if data.length < 2 then .error .valueError else callEntropy L data approach cond kw

/-- `mutual_information`, `estimators/functional.py:407-467` -/
def callMI (L : PyLower) (data : List D) (approach : PyName) (cond : CondKw D)
    (kw : String → Option V) : Except Exc (CtorCall D V) := do
  let c ← dynEstimator L (.pair "mi" "cmi") approach cond
  if data.length < 2 then .error .valueError
  else pure { cls := c, data := data, cond := cond, kw := kw }

/-- `conditional_mutual_information`, `estimators/functional.py:470-486` -/
def callCMI (L : PyLower) (data : List D) (approach : PyName) (cond : CondKw D)
    (kw : String → Option V) : Except Exc (CtorCall D V) :=
  if cond.isVal = false then .error .valueError
  else if data.length < 2 then .error .valueError
  else callMI L data approach cond kw

/-- `transfer_entropy`, `estimators/functional.py:489-557` -/
def callTE (L : PyLower) (data : List D) (approach : PyName) (cond : CondKw D)
    (kw : String → Option V) : Except Exc (CtorCall D V) := do
  let c ← dynEstimator L (.pair "te" "cte") approach cond
  if data.length ≠ 2 then .error .valueError
  else pure { cls := c, data := data, cond := cond, kw := kw }

/-- `conditional_transfer_entropy`, `estimators/functional.py:560-575` -/
def callCTE (L : PyLower) (data : List D) (approach : PyName) (cond : CondKw D)
    (kw : String → Option V) : Except Exc (CtorCall D V) :=
  if cond.isVal = false then .error .valueError
  else if data.length ≠ 2 then .error .valueError
  else callTE L data approach cond kw

/-- value of a functional call: class call, then `.result()` -/
def runCall (ctor : CtorCall D V → Except Exc E) (result : E → Except Exc R)
    (c : Except Exc (CtorCall D V)) : Except Exc R := do
  let call ← c
  let e ← ctor call
  result e

/-- keyword parameters named in the signature of `estimator`, `estimators/functional.py:584-588` -/
def namedParams : List String :=
  ["step_size", "prop_time", "src_hist_len", "dest_hist_len", "cond_hist_len"]

/-- `measure.lower().replace(" ", "_").replace("-", "_")`, `estimators/functional.py:687` -/
def measureComp (L : PyLower) (m : String) : String :=
  String.ofList ((L.run m).toList.map (fun c => if c = ' ' then '_' else if c = '-' then '_' else c))

/-- default values in the signature of `estimator` (and of every transfer-entropy class, for example
`transfer_entropy/discrete.py:51-55`) -/
def teDefault (ofInt : Int → V) (k : String) : Option V :=
  if k = "prop_time" then some (ofInt 0)
  else if k = "step_size" ∨ k = "src_hist_len" ∨ k = "dest_hist_len" ∨ k = "cond_hist_len" then some (ofInt 1)
  else none

/-- the keyword arguments left in `**kwargs` after the named parameters are bound -/
def restKw (kw : String → Option V) : String → Option V :=
  fun k => if k ∈ namedParams then none else kw k

/-- keyword arguments of the transfer-entropy calls of `estimator`: the named parameters, bound or at
their default, then `**kwargs` -/
def teKw (ofInt : Int → V) (passed : List String) (kw : String → Option V) : String → Option V :=
  fun k => if k ∈ passed then (kw k).or (teDefault ofInt k) else restKw kw k

/-- `mi_entropy_map[approach]`: a raw dictionary lookup -/
def miEntropyLookup (approach : PyName) : Except Exc PyName :=
  match approach with
  | .str s =>
    match miEntropyMap s with
    | some e => .ok (.str e)
    | none => .error .keyError
  | _ => .error .keyError

/-- `estimator`, `estimators/functional.py:578-787`: the class call it returns the result of -/
def callEstimator (L : PyLower) (ofInt : Int → V) (data : List D) (cond : Option D)
    (measure approach : PyName) (kw : String → Option V) : Except Exc (CtorCall D V) :=
  match measure with
  | .none => .error .valueError
  | .other => .error .attributeError
  | .str m =>
    let mc := measureComp L m
    if mc ∈ ["entropy", "h", "cross_entropy", "hx"] then
      if data.length = 0 ∧ mc ∈ ["entropy", "h"] then .error .valueError
      else if data.length < 2 ∧ mc ∈ ["cross_entropy", "hx"] then .error .valueError
      else if cond.isSome then .error .valueError
      else if 2 < data.length then .error .valueError
      else do
        let c ← getEstimator L entropyTable approach
        pure { cls := c, data := data, cond := .absent, kw := restKw kw }
    else if mc ∈ ["mutual_information", "mi", "conditional_mutual_information", "cmi"] then
      if mc ∈ ["cmi", "conditional_mutual_information"] ∧ cond.isNone then .error .valueError
      else if data.length = 0 then .error .valueError
      else if data.length = 1 then do
        let e ← miEntropyLookup approach
        let c ← getEstimator L entropyTable e
        pure { cls := c, data := data.take 1, cond := .absent, kw := restKw kw }
      else match cond with
        | some z => do
          let c ← getEstimator L cmiTable approach
          pure { cls := c, data := data, cond := .val z, kw := restKw kw }
        | none => do
          let c ← getEstimator L miTable approach
          pure { cls := c, data := data, cond := .absent, kw := restKw kw }
    else if mc ∈ ["transfer_entropy", "te", "conditional_transfer_entropy", "cte"] then
      if mc ∈ ["cte", "conditional_transfer_entropy"] ∧ cond.isNone then .error .valueError
      else if data.length ≠ 2 then .error .valueError
      else match cond with
        | some z => do
          let c ← getEstimator L cteTable approach
          pure { cls := c, data := data, cond := .val z,
                 kw := teKw ofInt ["prop_time", "src_hist_len", "dest_hist_len", "cond_hist_len", "step_size"] kw }
        | none => do
          let c ← getEstimator L teTable approach
          pure { cls := c, data := data, cond := .absent,
                 kw := teKw ofInt ["prop_time", "src_hist_len", "dest_hist_len", "step_size"] kw }
    else .error .valueError

end

end Verif
