import Verif.Model.Entropy

/-!
# Model of the configuration store

`infomeasure/utils/config.py` and the places that read it.  `Config._settings` is process-wide mutable
state; every class method is a state transformer that returns a value or an exception.
-/

namespace Verif

/-- Python values a user can pass as a setting.  NumPy integers and everything else are `other`
(`isinstance(np.int64(3), int)` is False). -/
inductive CfgVal
  | int (n : Int)
  | float (x : ℝ)
  | bool (b : Bool)
  | str (s : String)
  | other

/-- `Config._settings`, a dictionary -/
abbrev Settings := String → Option CfgVal

/-- `Config._settings` after import / `reset`: the `value` entries of `__default_settings`,
`utils/config.py:57-74` -/
def defaultSettings : Settings := fun k =>
  if k = "base" then some (.str "e")
  else if k = "statistical_test_method" then some (.str "permutation_test")
  else if k = "statistical_test_n_tests" then some (.int 200)
  else none

/-- `isinstance(value, types)` for the `types` entry of a key, `utils/config.py:59-73` (`None` for the
method: never).  A bool is an int. -/
def cfgIsInstance (key : String) (v : CfgVal) : Bool :=
  if key = "base" then
    match v with | .int _ | .float _ | .bool _ => true | _ => false
  else if key = "statistical_test_n_tests" then
    match v with | .int _ | .bool _ => true | _ => false
  else false

/-- `value in explicitly_allowed`, `utils/config.py:59-73`; for the number of tests the list is `None`
and the test itself raises TypeError. -/
def cfgAllowed (key : String) (v : CfgVal) : Bool :=
  match v with
  | .str s =>
    if key = "base" then decide (s = "e")
    else if key = "statistical_test_method" then decide (s = "permutation_test" ∨ s = "bootstrap")
    else false
  | _ => false

/-- `Config.get`, `utils/config.py:77-91` -/
def Config.get (s : Settings) (key : String) : Except Exc CfgVal :=
  match s key with
  | some v => .ok v
  | none => .error .keyError

/-- `Config.set`, `utils/config.py:93-129` -/
def Config.set (s : Settings) (key : String) (v : CfgVal) : Except Exc Unit × Settings :=
  if (s key).isNone then (.error .keyError, s)
  else if cfgIsInstance key v = false ∧ cfgAllowed key v = false then (.error .typeError, s)
  else (.ok (), fun k => if k = key then some v else s k)

/-- `Config.reset`, `utils/config.py:131-135` -/
def Config.reset (_ : Settings) : Except Exc Unit × Settings := (.ok (), defaultSettings)

/-- `BASE_UNIT_MAP`, `utils/config.py:15-34`: base value, identifiers, name -/
def baseUnitMap : List (CfgVal × List String × String) :=
  [(.int 2, ["bits", "bit", "shannons", "shannon"], "bit/shannon"),
   (.str "e", ["nats", "nat", "nit", "nepit"], "nat/nit/nepit"),
   (.int 10, ["hartleys", "hartley", "bans", "ban", "dits", "dit"], "hartley/ban/dit")]

/-- `Config.set_logarithmic_unit`, `utils/config.py:138-167` (ASCII lower-casing) -/
def Config.setUnit (s : Settings) (unit : String) : Except Exc Unit × Settings :=
  match baseUnitMap.find? (fun e => decide (unit.toLower ∈ e.2.1)) with
  | some e => Config.set s "base" e.1
  | none => (.error .valueError, s)

open Classical in
/-- Python `==` between a stored setting and a key of `BASE_UNIT_MAP` (numbers compare by value) -/
noncomputable def cfgEq (v k : CfgVal) : Bool :=
  match v, k with
  | .int m, .int n => decide (m = n)
  | .float x, .int n => decide (x = (n : ℝ))
  | .bool b, .int n => decide ((if b then 1 else 0) = n)
  | .str s, .str t => decide (s = t)
  | _, _ => false

/-- `Config.get_logarithmic_unit`, `utils/config.py:169-181`; `none` stands for the string
`unknown (base …)` -/
noncomputable def Config.getUnit (s : Settings) : Except Exc (Option String) := do
  let v ← Config.get s "base"
  pure ((baseUnitMap.find? (fun e => cfgEq v e.1)).map (fun e => e.2.2))

/-- the `description` entries of `BASE_UNIT_MAP`, `utils/config.py:15-34`, in the order of `baseUnitMap` -/
def baseUnitDescriptions : List (CfgVal × String) :=
  [(.int 2, "This base is best suited for binary information, which is fundamental in digital systems."),
   (.str "e", "This base is best suited for continuous probability distributions."),
   (.int 10, "This base is best suited for decimal information, which is commonly used in human-centric measurements.")]

/-- `Config.get_logarithmic_unit_description`, `utils/config.py:183-200` -/
noncomputable def Config.getUnitDescription (s : Settings) : Except Exc String := do
  let v ← Config.get s "base"
  match baseUnitDescriptions.find? (fun e => cfgEq v e.1) with
  | some e => .ok e.2
  | none => .error .valueError

/-- a call of one of the mutating class methods -/
inductive CfgOp
  | set (key : String) (v : CfgVal)
  | reset
  | setUnit (unit : String)

/-- effect of one call on the store (whether or not it raises) -/
def CfgOp.apply (s : Settings) : CfgOp → Settings
  | .set k v => (Config.set s k v).2
  | .reset => (Config.reset s).2
  | .setUnit u => (Config.setUnit s u).2

/-- the store after a history of calls, starting at import -/
def cfgRun (ops : List CfgOp) : Settings := ops.foldl CfgOp.apply defaultSettings

/-! ## Where the default base is read -/

/-- The base an estimator computes with, from a stored setting.  A bool is the number 0 or 1. -/
noncomputable def cfgBase (v : CfgVal) : Except Exc Base :=
  match v with
  | .int n => .ok (.num n)
  | .float x => .ok (.num x)
  | .bool b => .ok (.num (if b then 1 else 0))
  | .str s => if s = "e" then .ok .e else .error .typeError
  | .other => .error .typeError

/-- Default value of the `base` parameter of every estimator constructor and of `from_counts`:
`base: LogBaseType = Config.get("base")` (`estimators/base.py:67`, `:1171`, and all subclasses) is
evaluated once, when the class body is executed at import, i.e. on the store as it is then. -/
def importedBase : Except Exc CfgVal := Config.get defaultSettings "base"

/-- `entropy(x, approach="discrete"[, base=b])` at a moment when the store is `s`:
`functional.py:325-390` passes the keyword arguments on, so without `base` the constructor default
applies; the store is not consulted. -/
noncomputable def entropyCall (_s : Settings) (x : EInput) (base : Option CfgVal) : Except Exc ℝ := do
  let v ← match base with
    | some v => pure v
    | none => importedBase
  let b ← cfgBase v
  discreteEntropy [x] b

/-- `DiscreteEntropyEstimator(discrete_data[, base=b]).result()` with a ready-made `DiscreteData`:
`estimators/base.py:1146-1151`, `kwargs.get("base", Config.get("base"))`, read at call time. -/
noncomputable def entropyOfData (s : Settings) (d : DiscreteData Int) (base : Option CfgVal) :
    Except Exc ℝ := do
  let current ← Config.get s "base"
  let b ← cfgBase (base.getD current)
  discreteSimple b d

end Verif
