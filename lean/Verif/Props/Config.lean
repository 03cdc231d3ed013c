import Verif.Model.Config
import Verif.Lemmas.Entropy

/-! # C38 – C39: configuration store and default base -/

namespace Verif

open Spec

/-- the three settings -/
def CfgKeys : List String := ["base", "statistical_test_method", "statistical_test_n_tests"]

/-- what may be stored under a key -/
def CfgOk (key : String) (v : CfgVal) : Prop :=
  (key = "base" ∧ ((∃ n, v = .int n) ∨ (∃ x, v = .float x) ∨ (∃ b, v = .bool b) ∨ v = .str "e")) ∨
  (key = "statistical_test_method" ∧ (v = .str "permutation_test" ∨ v = .str "bootstrap")) ∨
  (key = "statistical_test_n_tests" ∧ ((∃ n, v = .int n) ∨ (∃ b, v = .bool b)))

theorem cfg_accept_iff (key : String) (v : CfgVal) :
    ¬ (cfgIsInstance key v = false ∧ cfgAllowed key v = false) ↔ CfgOk key v := by
  have h1 : ("base" : String) ≠ "statistical_test_n_tests" := by decide
  have h2 : ("base" : String) ≠ "statistical_test_method" := by decide
  have h3 : ("statistical_test_method" : String) ≠ "statistical_test_n_tests" := by decide
  have h4 : ("e" : String) ≠ "bootstrap" := by decide
  by_cases k1 : key = "base"
  · subst k1
    cases v <;> simp [cfgIsInstance, cfgAllowed, CfgOk]
  by_cases k2 : key = "statistical_test_method"
  · subst k2
    cases v <;> simp [cfgIsInstance, cfgAllowed, CfgOk]
    exact or_iff_not_imp_left.symm
  by_cases k3 : key = "statistical_test_n_tests"
  · subst k3
    cases v <;> simp [cfgIsInstance, cfgAllowed, CfgOk]
  · cases v <;> simp [cfgIsInstance, cfgAllowed, CfgOk, k1, k2, k3]

/-- well-formed store: exactly the three keys, each with an admissible value -/
def CfgInv (s : Settings) : Prop := ∀ k, (k ∈ CfgKeys ↔ (s k).isSome) ∧ ∀ v, s k = some v → CfgOk k v

theorem cfg_default_inv : CfgInv defaultSettings := by
  intro k
  constructor
  · simp only [CfgKeys, List.mem_cons, List.not_mem_nil, or_false, defaultSettings]
    split_ifs <;> simp_all
  · intro v hv
    simp only [defaultSettings] at hv
    split_ifs at hv with a b c <;> cases hv
    · exact Or.inl ⟨a, Or.inr (Or.inr (Or.inr rfl))⟩
    · exact Or.inr (Or.inl ⟨b, Or.inl rfl⟩)
    · exact Or.inr (Or.inr ⟨c, Or.inl ⟨_, rfl⟩⟩)

theorem cfg_set_inv {s : Settings} (h : CfgInv s) (key : String) (v : CfgVal) :
    CfgInv (Config.set s key v).2 := by
  unfold Config.set
  split_ifs with h1 h2
  · exact h
  · exact h
  · have hok := (cfg_accept_iff key v).1 h2
    have hs : (s key).isSome := by
      rw [Option.isSome_iff_ne_none]; simpa using h1
    intro k
    by_cases hk : k = key
    · subst hk
      simp only [if_true, Option.isSome_some, iff_true, Option.some.injEq]
      exact ⟨(h k).1.2 hs, fun w hw => hw ▸ hok⟩
    · simp only [hk, if_false]
      exact h k

theorem cfg_op_inv {s : Settings} (h : CfgInv s) (op : CfgOp) : CfgInv (op.apply s) := by
  cases op with
  | set k v => exact cfg_set_inv h k v
  | reset => exact cfg_default_inv
  | setUnit u =>
    show CfgInv (Config.setUnit s u).2
    unfold Config.setUnit
    split
    · exact cfg_set_inv h _ _
    · exact h

theorem cfg_run_inv (ops : List CfgOp) : CfgInv (cfgRun ops) := by
  have : ∀ s, CfgInv s → CfgInv (ops.foldl CfgOp.apply s) := by
    induction ops with
    | nil => exact fun s h => h
    | cons op ops ih => exact fun s h => ih _ (cfg_op_inv h op)
  exact this _ cfg_default_inv

/-- **C38** After any history of calls (accepted or rejected) every one of the three settings is present
with an admissible value and nothing else is in the store: reading a setting never fails, an unknown key
always raises KeyError. -/
theorem C38_store_always_well_formed (ops : List CfgOp) (key : String) :
    (key ∈ CfgKeys → ∃ v, Config.get (cfgRun ops) key = .ok v ∧ CfgOk key v) ∧
    (key ∉ CfgKeys → Config.get (cfgRun ops) key = .error .keyError) := by
  have h := cfg_run_inv ops key
  constructor
  · intro hk
    obtain ⟨v, hv⟩ := Option.isSome_iff_exists.1 (h.1.1 hk)
    exact ⟨v, by simp [Config.get, hv], h.2 v hv⟩
  · intro hk
    have : cfgRun ops key = none := by
      by_contra hc
      exact hk (h.1.2 (Option.isSome_iff_ne_none.2 hc))
    simp [Config.get, this]

/-- **C38** In every reachable store, `set` succeeds exactly for a known key with an admissible value; an
unknown key is a KeyError, an inadmissible value a TypeError. -/
theorem C38_set_outcome (ops : List CfgOp) (key : String) (v : CfgVal) :
    (Config.set (cfgRun ops) key v).1 =
      (open Classical in
      if key ∉ CfgKeys then .error .keyError
      else if CfgOk key v then .ok () else .error .typeError) := by
  have h := cfg_run_inv ops key
  unfold Config.set
  by_cases hk : key ∈ CfgKeys
  · have hs := h.1.1 hk
    have : ¬ (cfgRun ops key).isNone := by
      rw [Option.isSome_iff_ne_none] at hs; simpa using hs
    rw [if_neg this, if_neg (not_not.2 hk)]
    by_cases hok : CfgOk key v
    · rw [if_neg ((cfg_accept_iff key v).2 hok), if_pos hok]
    · rw [if_pos (by by_contra hc; exact hok ((cfg_accept_iff key v).1 hc)), if_neg hok]
  · have hs : (cfgRun ops key).isNone := by
      have := h.1.not.1 hk
      simpa using this
    rw [if_pos hs, if_pos hk]

/-- **C38** A rejected `set` or `set_logarithmic_unit` changes nothing. -/
theorem C38_rejected_call_changes_nothing (s : Settings) (e : Exc) :
    (∀ key v, (Config.set s key v).1 = .error e → (Config.set s key v).2 = s) ∧
    (∀ u, (Config.setUnit s u).1 = .error e → (Config.setUnit s u).2 = s) := by
  have h1 : ∀ key v, (Config.set s key v).1 = .error e → (Config.set s key v).2 = s := by
    intro key v h
    unfold Config.set at h ⊢
    split_ifs at h ⊢ <;> rfl
  refine ⟨h1, fun u h => ?_⟩
  unfold Config.setUnit at h ⊢
  split at h
  · exact h1 _ _ h
  · rfl

/-- **C38** An accepted `set` is what the next `get` of that key returns, and no other key changes. -/
theorem C38_accepted_set_is_read_back (s : Settings) (key : String) (v : CfgVal)
    (h : (Config.set s key v).1 = .ok ()) :
    Config.get (Config.set s key v).2 key = .ok v ∧
    ∀ k, k ≠ key → Config.get (Config.set s key v).2 k = Config.get s k := by
  unfold Config.set at h ⊢
  split_ifs at h ⊢ with h1 h2
  constructor
  · simp [Config.get]
  · intro k hk
    simp [Config.get, hk]

example := C38_accepted_set_is_read_back (cfgRun [.set "base" (.int 10)]) "base" (.int 2)
  (by simp [Config.set, cfgRun, CfgOp.apply, defaultSettings, cfgIsInstance])

/-- **C38** `reset` restores the documented defaults whatever happened before. -/
theorem C38_reset_restores_defaults (ops : List CfgOp) :
    cfgRun (ops ++ [.reset]) = cfgRun [] ∧
    Config.get (cfgRun (ops ++ [.reset])) "base" = .ok (.str "e") ∧
    Config.get (cfgRun (ops ++ [.reset])) "statistical_test_method" = .ok (.str "permutation_test") ∧
    Config.get (cfgRun (ops ++ [.reset])) "statistical_test_n_tests" = .ok (.int 200) := by
  have h : cfgRun (ops ++ [.reset]) = defaultSettings := by
    rw [cfgRun, List.foldl_append]; rfl
  rw [h]
  exact ⟨rfl, by simp [Config.get, defaultSettings], by simp [Config.get, defaultSettings],
    by simp [Config.get, defaultSettings]⟩

/-- **C38** Unit names are case-insensitive. -/
theorem C38_units_case_insensitive (s : Settings) (u u' : String) (h : u.toLower = u'.toLower) :
    Config.setUnit s u = Config.setUnit s u' := by
  unfold Config.setUnit; rw [h]

example := C38_units_case_insensitive (cfgRun []) "ShaNNons" "sHannoNS"
  ((by decide +kernel : "ShaNNons".toLower = "shannons").trans (by decide +kernel : "sHannoNS".toLower = "shannons").symm)

/-- documented units: aliases, base, reported name -/
def UnitSpec : List (String × CfgVal × String) :=
  [("bits", .int 2, "bit/shannon"), ("bit", .int 2, "bit/shannon"),
   ("shannons", .int 2, "bit/shannon"), ("shannon", .int 2, "bit/shannon"),
   ("nats", .str "e", "nat/nit/nepit"), ("nat", .str "e", "nat/nit/nepit"),
   ("nit", .str "e", "nat/nit/nepit"), ("nepit", .str "e", "nat/nit/nepit"),
   ("hartleys", .int 10, "hartley/ban/dit"), ("hartley", .int 10, "hartley/ban/dit"),
   ("bans", .int 10, "hartley/ban/dit"), ("ban", .int 10, "hartley/ban/dit"),
   ("dits", .int 10, "hartley/ban/dit"), ("dit", .int 10, "hartley/ban/dit")]

theorem cfg_isSome (ops : List CfgOp) (k : String) (hk : k ∈ CfgKeys) :
    (cfgRun ops k).isSome := (cfg_run_inv ops k).1.1 hk

theorem cfg_base_isSome (ops : List CfgOp) : ¬ (cfgRun ops "base").isNone := by
  have := (cfg_run_inv ops "base").1.1 (by simp [CfgKeys])
  rw [Option.isSome_iff_ne_none] at this
  simpa using this

/-- **C38** In every reachable store each documented alias (in any capitalisation) is accepted, sets the
documented base, leaves the other settings alone, and is reported back under its unit name. -/
theorem C38_units_round_trip (ops : List CfgOp) (u : String) (a : String × CfgVal × String)
    (ha : a ∈ UnitSpec) (hu : u.toLower = a.1) :
    (Config.setUnit (cfgRun ops) u).1 = .ok () ∧
    Config.get (Config.setUnit (cfgRun ops) u).2 "base" = .ok a.2.1 ∧
    Config.getUnit (Config.setUnit (cfgRun ops) u).2 = .ok (some a.2.2) ∧
    ∀ k, k ≠ "base" → Config.get (Config.setUnit (cfgRun ops) u).2 k = Config.get (cfgRun ops) k := by
  have hb := cfg_base_isSome ops
  have key : ∀ v : CfgVal, CfgOk "base" v → (Config.set (cfgRun ops) "base" v).1 = .ok () := by
    intro v hv
    rw [C38_set_outcome, if_neg (by simp [CfgKeys]), if_pos hv]
  have fin : ∀ (v : CfgVal) (name : String), CfgOk "base" v →
      Config.setUnit (cfgRun ops) u = Config.set (cfgRun ops) "base" v →
      (baseUnitMap.find? (fun e => cfgEq v e.1)).map (fun e => e.2.2) = some name →
      (Config.setUnit (cfgRun ops) u).1 = .ok () ∧
      Config.get (Config.setUnit (cfgRun ops) u).2 "base" = .ok v ∧
      Config.getUnit (Config.setUnit (cfgRun ops) u).2 = .ok (some name) ∧
      ∀ k, k ≠ "base" → Config.get (Config.setUnit (cfgRun ops) u).2 k = Config.get (cfgRun ops) k := by
    intro v name hv he hn
    rw [he]
    have h1 := key v hv
    obtain ⟨h2, h3⟩ := C38_accepted_set_is_read_back _ _ _ h1
    refine ⟨h1, h2, ?_, h3⟩
    simp only [Config.getUnit, h2, bind, Except.bind, pure, Except.pure, hn]
  have n2 : (baseUnitMap.find? (fun e => cfgEq (.int 2) e.1)).map (fun e => e.2.2)
      = some "bit/shannon" := by simp [baseUnitMap, cfgEq]
  have ne : (baseUnitMap.find? (fun e => cfgEq (.str "e") e.1)).map (fun e => e.2.2)
      = some "nat/nit/nepit" := by simp [baseUnitMap, cfgEq]
  have n10 : (baseUnitMap.find? (fun e => cfgEq (.int 10) e.1)).map (fun e => e.2.2)
      = some "hartley/ban/dit" := by simp [baseUnitMap, cfgEq]
  have k2 : CfgOk "base" (.int 2) := Or.inl ⟨rfl, Or.inl ⟨_, rfl⟩⟩
  have k10 : CfgOk "base" (.int 10) := Or.inl ⟨rfl, Or.inl ⟨_, rfl⟩⟩
  have ke : CfgOk "base" (.str "e") := Or.inl ⟨rfl, Or.inr (Or.inr (Or.inr rfl))⟩
  simp only [UnitSpec, List.mem_cons, List.not_mem_nil, or_false] at ha
  rcases ha with rfl | rfl | rfl | rfl | rfl | rfl | rfl | rfl | rfl | rfl | rfl | rfl | rfl | rfl
  all_goals
    first
    | exact fin _ _ k2 (by unfold Config.setUnit; rw [hu]; simp [baseUnitMap]) n2
    | exact fin _ _ ke (by unfold Config.setUnit; rw [hu]; simp [baseUnitMap]) ne
    | exact fin _ _ k10 (by unfold Config.setUnit; rw [hu]; simp [baseUnitMap]) n10

example := C38_units_round_trip [.set "base" (.int 10)] "BITS" ("bits", .int 2, "bit/shannon") (by simp [UnitSpec]) (by decide +kernel)

/-- **C38** Any other unit name is a ValueError and changes nothing. -/
theorem C38_unknown_unit (s : Settings) (u : String) (h : ∀ a ∈ UnitSpec, u.toLower ≠ a.1) :
    Config.setUnit s u = (.error .valueError, s) := by
  unfold Config.setUnit
  have : baseUnitMap.find? (fun e => decide (u.toLower ∈ e.2.1)) = none := by
    simp only [UnitSpec, List.mem_cons, List.not_mem_nil, or_false, forall_eq_or_imp, forall_eq] at h
    simp [baseUnitMap, h]
  rw [this]

example := C38_unknown_unit (cfgRun []) "trits" (by
  rw [show "trits".toLower = "trits" by decide +kernel]; simp [UnitSpec])

/-- documented descriptions of the three named units -/
def UnitDescr : List (String × String) :=
  [("bit/shannon", "This base is best suited for binary information, which is fundamental in digital systems."),
   ("nat/nit/nepit", "This base is best suited for continuous probability distributions."),
   ("hartley/ban/dit", "This base is best suited for decimal information, which is commonly used in human-centric measurements.")]

/-- **C38** After any history of calls the description is the documented one of the reported unit; it is a ValueError exactly when the
reported unit is unknown.  After import and after a reset there is one. -/
theorem C38_unit_description (ops : List CfgOp) :
    (∀ d, Config.getUnitDescription (cfgRun ops) = .ok d ↔ ∃ n, Config.getUnit (cfgRun ops) = .ok (some n) ∧ (n, d) ∈ UnitDescr) ∧
    (Config.getUnitDescription (cfgRun ops) = .error .valueError ↔ Config.getUnit (cfgRun ops) = .ok none) ∧
    Config.getUnitDescription (cfgRun (ops ++ [.reset])) = .ok "This base is best suited for continuous probability distributions." := by
  have hr : cfgRun (ops ++ [.reset]) = defaultSettings := by rw [cfgRun, List.foldl_append]; rfl
  obtain ⟨v, hv, -⟩ := (C38_store_always_well_formed ops "base").1 (by simp [CfgKeys])
  rw [hr]
  unfold Config.getUnitDescription Config.getUnit
  rw [hv]
  simp only [bind, Except.bind, pure, Except.pure, baseUnitDescriptions, baseUnitMap, List.find?_cons, List.find?_nil]
  refine ⟨?_, ?_, ?_⟩
  · intro d
    cases cfgEq v (.int 2) <;> cases cfgEq v (.str "e") <;> cases cfgEq v (.int 10) <;> simp [UnitDescr, eq_comm]
  · cases cfgEq v (.int 2) <;> cases cfgEq v (.str "e") <;> cases cfgEq v (.int 10) <;> simp
  · simp [Config.get, defaultSettings, cfgEq]

example : "ShaNNons".toLower = "shannons" := by decide +kernel
example : (Config.set (cfgRun []) "base" (.int 2)).1 = .ok () := by
  simp [Config.set, cfgRun, defaultSettings, cfgIsInstance]

/-! ## C39 The default base -/

/-- **C39** (negative) A call without explicit base ignores the configured base: whatever configuration
history precedes it, the discrete entropy comes out in nats. -/
theorem C39_default_base_ignores_config (ops : List CfgOp) (xs : List Int) (h : xs ≠ []) :
    entropyCall (cfgRun ops) (.arr1 xs) none = .ok (entropy xs) := by
  have : importedBase = .ok (.str "e") := by simp [importedBase, Config.get, defaultSettings]
  simp only [entropyCall, this, bind, Except.bind, cfgBase, if_true]
  show discreteEntropy [EInput.arr1 xs] Base.e = _
  rw [discreteEntropy_arr1 h (b := .e) trivial]
  simp [Base.ln]

example := C39_default_base_ignores_config [.set "base" (.int 2)] [5, 7, 5] (by decide)

/-- **C39** (negative) So after `Config.set("base", 2)` a fair bit has "default" entropy `log 2`, not 1,
although the configuration reports base 2. -/
theorem C39_config_base_not_used :
    Config.get (cfgRun [.set "base" (.int 2)]) "base" = .ok (.int 2) ∧
    entropyCall (cfgRun [.set "base" (.int 2)]) (.arr1 [0, 1]) none = .ok (Real.log 2) ∧
    entropyCall (cfgRun [.set "base" (.int 2)]) (.arr1 [0, 1]) (some (.int 2)) = .ok 1 := by
  have he : entropy [(0:Int), 1] = Real.log 2 := by
    have := (entropy_eq_log_card_iff [(0:Int), 1] (by simp)).2 (by decide +kernel)
    rw [this]; norm_num
  refine ⟨?_, ?_, ?_⟩
  · simp [cfgRun, CfgOp.apply, Config.set, defaultSettings, cfgIsInstance, Config.get]
  · rw [C39_default_base_ignores_config _ _ (by simp), he]
  · simp only [entropyCall, bind, Except.bind, cfgBase, pure, Except.pure]
    rw [discreteEntropy_arr1 (by simp) (by simp [Base.Valid]), he]
    simp only [Base.ln, Int.cast_ofNat]
    rw [div_self (Real.log_pos (by norm_num)).ne']

/-- **C39** An explicit base is always honoured, whatever the configuration. -/
theorem C39_explicit_base_wins (ops : List CfgOp) (xs : List Int) (h : xs ≠ []) (n : Int) (hn : 1 < n) :
    entropyCall (cfgRun ops) (.arr1 xs) (some (.int n)) = .ok (entropy xs / Real.log n) := by
  have hv : Base.Valid (.num (n : ℝ)) := by
    have : (1:ℝ) < n := by exact_mod_cast hn
    exact ⟨by linarith, by linarith⟩
  simp only [entropyCall, bind, Except.bind, cfgBase, pure, Except.pure]
  rw [discreteEntropy_arr1 h hv]
  rfl

example := C39_explicit_base_wins [.set "base" (.int 2)] [5, 7, 5] (by decide) 10 (by decide)

/-- **C39** (negative) The two ways of building the same estimator disagree about the default: from a
ready-made `DiscreteData` the *current* configuration is used, from raw data the one at import. -/
theorem C39_constructors_disagree (xs : List Int) (h : xs ≠ []) (n : Int) (hn : 1 < n) :
    entropyOfData (cfgRun [.set "base" (.int n)]) (mkData xs) none = .ok (entropy xs / Real.log n) ∧
    entropyCall (cfgRun [.set "base" (.int n)]) (.arr1 xs) none = .ok (entropy xs) := by
  have hv : Base.Valid (.num (n : ℝ)) := by
    have : (1:ℝ) < n := by exact_mod_cast hn
    exact ⟨by linarith, by linarith⟩
  refine ⟨?_, C39_default_base_ignores_config _ xs h⟩
  have hg : Config.get (cfgRun [.set "base" (.int n)]) "base" = .ok (.int n) := by
    simp [cfgRun, CfgOp.apply, Config.set, defaultSettings, cfgIsInstance, Config.get]
  simp only [entropyOfData, hg, bind, Except.bind, Option.getD_none, cfgBase]
  rw [discreteSimple_ok hv]; rfl

example := C39_constructors_disagree [5, 7, 5] (by decide) 2 (by decide)

/-- **C39** Also with a ready-made `DiscreteData` an explicit base is honoured, whatever the configuration. -/
theorem C39_explicit_base_wins_for_data (ops : List CfgOp) (xs : List Int) (n : Int) (hn : 1 < n) (v : CfgVal)
    (hcfg : Config.get (cfgRun ops) "base" = .ok v) :
    entropyOfData (cfgRun ops) (mkData xs) (some (.int n)) = .ok (entropy xs / Real.log n) := by
  have hv : Base.Valid (.num (n : ℝ)) := by
    have : (1:ℝ) < n := by exact_mod_cast hn
    exact ⟨by linarith, by linarith⟩
  simp only [entropyOfData, hcfg, bind, Except.bind, Option.getD_some, cfgBase]
  rw [discreteSimple_ok hv]; rfl

/-- base 10 requested while the configuration says 2 -/
example (xs : List Int) :
    entropyOfData (cfgRun [.set "base" (.int 2)]) (mkData xs) (some (.int 10)) = .ok (entropy xs / Real.log 10) := by
  have := C39_explicit_base_wins_for_data [.set "base" (.int 2)] xs 10 (by norm_num) (.int 2)
    (by simp [cfgRun, CfgOp.apply, Config.set, defaultSettings, cfgIsInstance, Config.get])
  simpa using this

end Verif
