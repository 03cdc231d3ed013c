import Verif.Model.LogLevel
import Verif.Props.Config

/-!
# C98: the log level
-/

namespace Verif

/-- the documented level names of the standard library with their values -/
def LevelSpec : List (String × Int) :=
  [("CRITICAL", 50), ("FATAL", 50), ("ERROR", 40), ("WARNING", 30), ("WARN", 30), ("INFO", 20), ("DEBUG", 10), ("NOTSET", 0)]

variable {M : Logging}

theorem log_spec {p : String × Int} (hp : p ∈ LevelSpec) : M.attr p.1 = some (.int p.2) := by
  simp only [LevelSpec, List.mem_cons, List.not_mem_nil, or_false] at hp
  rcases hp with rfl | rfl | rfl | rfl | rfl | rfl | rfl | rfl
  exacts [M.critical, M.fatal, M.error, M.warning, M.warn, M.info, M.debug, M.notset]

/-- **C98** A documented level name in any spelling of upper and lower case, and every integer, is accepted and becomes the level. -/
theorem C98_accepted (cur : Int) :
    (∀ n, Config.setLogLevel M cur (.int n) = (.ok (), n)) ∧
    (∀ s p, p ∈ LevelSpec → (∀ c ∈ s.toList, c.toNat < 128) → s.toList.map Char.toUpper = p.1.toList →
      Config.setLogLevel M cur (.str s) = (.ok (), p.2)) := by
  refine ⟨fun n => rfl, fun s p hp ha hs => ?_⟩
  have e : M.upper s = p.1 := String.toList_inj.1 ((M.ascii s ha).trans hs)
  show (match M.attr (M.upper s) with | some a => M.setLevel cur a | none => _) = _
  rw [e, log_spec hp]
  rfl

/-- **C98** A name that is no attribute of `logging` in upper case is refused with an AttributeError, and so is an object without text — the
documentation of the method promises a ValueError; the level does not change. -/
theorem C98_unknown_name (cur : Int) :
    (∀ s, M.attr (M.upper s) = none → Config.setLogLevel M cur (.str s) = (.error .attributeError, cur)) ∧
    Config.setLogLevel M cur .other = (.error .attributeError, cur) := by
  refine ⟨fun s h => ?_, rfl⟩
  show (match M.attr (M.upper s) with | some a => M.setLevel cur a | none => _) = _
  rw [h]

/-- **C98** Names of attributes of `logging` that are no levels get through to the logger: a ValueError for text (`BASIC_FORMAT`), a TypeError for
other objects (`_STYLES`). -/
theorem C98_other_attribute (cur : Int) (s : String) :
    (∀ t, M.attr (M.upper s) = some (.str t) → M.levels t = none → Config.setLogLevel M cur (.str s) = (.error .valueError, cur)) ∧
    (M.attr (M.upper s) = some .other → Config.setLogLevel M cur (.str s) = (.error .typeError, cur)) := by
  constructor
  · intro t h h2
    show (match M.attr (M.upper s) with | some a => M.setLevel cur a | none => _) = _
    rw [h]
    show (match M.levels t with | some n => _ | none => _) = _
    rw [h2]
  · intro h
    show (match M.attr (M.upper s) with | some a => M.setLevel cur a | none => _) = _
    rw [h]
    rfl

/-- **C98** A refused call changes nothing, an accepted one does not depend on the previous level. -/
theorem C98_transactional (a : LogArg) :
    (∀ cur e, (Config.setLogLevel M cur a).1 = .error e → (Config.setLogLevel M cur a).2 = cur) ∧
    (∀ cur cur', (Config.setLogLevel M cur a).1 = (Config.setLogLevel M cur' a).1) ∧
    (∀ cur cur', (Config.setLogLevel M cur a).1 = .ok () → (Config.setLogLevel M cur a).2 = (Config.setLogLevel M cur' a).2) := by
  have key : ∀ x : LogAttr, (∀ cur e, (M.setLevel cur x).1 = .error e → (M.setLevel cur x).2 = cur) ∧
      (∀ cur cur', (M.setLevel cur x).1 = (M.setLevel cur' x).1) ∧
      (∀ cur cur', (M.setLevel cur x).1 = .ok () → (M.setLevel cur x).2 = (M.setLevel cur' x).2) := by
    intro x
    cases x with
    | int n => exact ⟨fun _ _ h => (nomatch h), fun _ _ => rfl, fun _ _ _ => rfl⟩
    | str s =>
      simp only [Logging.setLevel]
      cases M.levels s with
      | none => exact ⟨fun _ _ _ => rfl, fun _ _ => rfl, fun _ _ h => (nomatch h)⟩
      | some n => exact ⟨fun _ _ h => (nomatch h), fun _ _ => rfl, fun _ _ _ => rfl⟩
    | other => exact ⟨fun _ _ _ => rfl, fun _ _ => rfl, fun _ _ h => (nomatch h)⟩
  cases a with
  | int n => exact key (.int n)
  | bool b => exact key (.int (if b then 1 else 0))
  | str s =>
    simp only [Config.setLogLevel]
    cases M.attr (M.upper s) with
    | none => exact ⟨fun _ _ _ => rfl, fun _ _ => rfl, fun _ _ h => (nomatch h)⟩
    | some x => exact key x
  | other => exact ⟨fun _ _ _ => rfl, fun _ _ => rfl, fun _ _ h => (nomatch h)⟩

/-- the calls of `Config` in a history -/
def cfgCalls (ops : List ProcOp) : List CfgOp := ops.filterMap fun o => match o with | .cfg op => some op | .log _ => none

/-- the level arguments in a history, in order -/
def logCalls (ops : List ProcOp) : List LogArg := ops.filterMap fun o => match o with | .cfg _ => none | .log a => some a

/-- **C98** Log level and settings are independent: after any history of calls — accepted and refused, in any order — the settings are those after the
`Config` calls alone, and the level is that of the last accepted call of `set_log_level` (NOTSET if there is none). -/
theorem C98_history (ops : List ProcOp) :
    (procRun M ops).settings = cfgRun (cfgCalls ops) ∧
    (procRun M ops).level = ((logCalls ops).filterMap fun a =>
      if (Config.setLogLevel M 0 a).1 = .ok () then some (Config.setLogLevel M 0 a).2 else none).getLastD 0 := by
  induction ops using List.reverseRecOn with
  | nil => exact ⟨rfl, rfl⟩
  | append_singleton ops op ih =>
    have e : procRun M (ops ++ [op]) = op.apply M (procRun M ops) := by simp [procRun]
    rw [e]
    cases op with
    | cfg o =>
      refine ⟨?_, ?_⟩
      · simp only [ProcOp.apply, ih.1, cfgCalls, cfgRun, List.filterMap_append, List.foldl_append]
        rfl
      · simpa [ProcOp.apply, logCalls] using ih.2
    | log a =>
      refine ⟨by simpa [ProcOp.apply, cfgCalls] using ih.1, ?_⟩
      have h := C98_transactional (M := M) a
      simp only [ProcOp.apply, logCalls, List.filterMap_append, List.filterMap_cons, List.filterMap_nil]
      by_cases hok : (Config.setLogLevel M 0 a).1 = .ok ()
      · rw [if_pos hok]
        simp only [List.getLastD_concat]
        exact h.2.2 _ _ ((h.2.1 _ 0).trans hok)
      · rw [if_neg hok]
        simp only [List.append_nil]
        rw [← logCalls, ← ih.2]
        cases he : (Config.setLogLevel M (procRun M ops).level a).1 with
        | error x => exact h.1 _ x he
        | ok u => exact absurd ((h.2.1 0 _).trans he) hok

/-- the standard library with the standard levels and one other attribute -/
def demoLogging : Logging where
  upper s := s.toUpper
  ascii s _ := by simp [String.toUpper, String.toList_map]
  attr s := if s = "BASIC_FORMAT" then some (.str "%(message)s") else (LevelSpec.lookup s).map .int
  levels s := LevelSpec.lookup s
  critical := by decide +kernel
  fatal := by decide +kernel
  error := by decide +kernel
  warning := by decide +kernel
  warn := by decide +kernel
  info := by decide +kernel
  debug := by decide +kernel
  notset := by decide +kernel

example : Config.setLogLevel demoLogging 0 (.str "debuG") = (.ok (), 10) :=
  (C98_accepted (M := demoLogging) 0).2 "debuG" ("DEBUG", 10) (by simp [LevelSpec]) (by decide +kernel) (by decide +kernel)
example : Config.setLogLevel demoLogging 20 (.str "loud") = (.error .attributeError, 20) :=
  (C98_unknown_name (M := demoLogging) 20).1 "loud" (by decide +kernel)
example : Config.setLogLevel demoLogging 20 (.str "Basic_Format") = (.error .valueError, 20) :=
  (C98_other_attribute (M := demoLogging) 20 "Basic_Format").1 "%(message)s" (by decide +kernel) (by decide +kernel)
example := C98_history (M := demoLogging) [.log (.str "info"), .cfg (.set "base" (.int 2)), .log (.str "loud"), .cfg .reset]

end Verif
