import Verif.Model.Config

/-!
# Model of the log level

`infomeasure/utils/config.py:6-12` and `:202-218`.  The level of the logger `"infomeasure"` is process-wide mutable state next to `Config._settings`.
-/

namespace Verif

/-- the level argument as received: a `bool` is an `int` in Python; `other` is an object that is no `int` and has no method `upper` (`None`, a float) -/
inductive LogArg
  | int (n : Int)
  | bool (b : Bool)
  | str (s : String)
  | other

/-- what an attribute of the module `logging` is, as far as `Logger.setLevel` looks at it -/
inductive LogAttr
  | int (n : Int)
  | str (s : String)
  | other
  deriving DecidableEq

/-- the standard library: `str.upper` (outside ASCII not modelled), the attributes of the module `logging`, and the registry of level names
(`logging._nameToLevel`) -/
structure Logging where
  upper : String → String
  ascii : ∀ s : String, (∀ c ∈ s.toList, c.toNat < 128) → (upper s).toList = s.toList.map Char.toUpper
  attr : String → Option LogAttr
  levels : String → Option Int
  critical : attr "CRITICAL" = some (.int 50)
  fatal : attr "FATAL" = some (.int 50)
  error : attr "ERROR" = some (.int 40)
  warning : attr "WARNING" = some (.int 30)
  warn : attr "WARN" = some (.int 30)
  info : attr "INFO" = some (.int 20)
  debug : attr "DEBUG" = some (.int 10)
  notset : attr "NOTSET" = some (.int 0)

/-- `Logger.setLevel(value)`: an integer is taken as it is, a string is looked up in the registry of names (ValueError if it is missing), anything else
is a TypeError (`logging/__init__.py`, `_checkLevel`) -/
def Logging.setLevel (M : Logging) (cur : Int) : LogAttr → Except Exc Unit × Int
  | .int n => (.ok (), n)
  | .str s => match M.levels s with
    | some n => (.ok (), n)
    | none => (.error .valueError, cur)
  | .other => (.error .typeError, cur)

/-- `Config.set_log_level(level)`, `utils/config.py:202-218`; `cur` is the level before the call -/
def Config.setLogLevel (M : Logging) (cur : Int) : LogArg → Except Exc Unit × Int
  | .int n => M.setLevel cur (.int n)
  | .bool b => M.setLevel cur (.int (if b then 1 else 0))
  | .str s => match M.attr (M.upper s) with
    | some a => M.setLevel cur a
    | none => (.error .attributeError, cur)
  | .other => (.error .attributeError, cur)

/-- the process-wide state of the package: settings and log level -/
structure ProcState where
  settings : Settings
  level : Int

/-- after import: `utils/config.py:12` (a new logger has level `NOTSET`) and `:76` -/
def ProcState.init : ProcState := ⟨defaultSettings, 0⟩

/-- a call that changes process-wide state -/
inductive ProcOp
  | cfg (op : CfgOp)
  | log (a : LogArg)

/-- effect of one call; an exception leaves the state as the call has made it -/
def ProcOp.apply (M : Logging) (s : ProcState) : ProcOp → ProcState
  | .cfg op => { s with settings := op.apply s.settings }
  | .log a => { s with level := (Config.setLogLevel M s.level a).2 }

/-- state after a history of calls -/
def procRun (M : Logging) (ops : List ProcOp) : ProcState := ops.foldl (ProcOp.apply M) ProcState.init

end Verif
