import Verif.Props.StatTest
import Verif.Props.Config
import Mathlib.Algebra.Order.BigOperators.Group.List
import Mathlib.Algebra.Order.Floor.Ring
import Mathlib.Algebra.Order.Round

/-! # C42 – C43: p-value, t-score, confidence intervals -/

namespace Verif

/-! ## C42 -/

/-- fraction of the values that exceed `x` -/
noncomputable def fractionAbove (vals : List ℝ) (x : ℝ) : ℝ :=
  open Classical in ((vals.filter (fun v => decide (x < v))).length : ℝ) / vals.length

theorem statResult_ok {obs : ℝ} {vals : List ℝ} {n : Int} {m : String} {r : StatRes}
    (h : statResult obs vals n m = .ok r) :
    2 ≤ vals.length ∧ r.pValue = fractionAbove vals obs ∧
    r.tScore = (open Classical in
      if npStd1 vals > 0 then some ((obs - npMean vals) / npStd1 vals) else none) ∧
    r.testValues = vals ∧ r.observed = obs ∧ r.nullMean = npMean vals ∧ r.nullStd = npStd1 vals ∧
    r.nTests = n ∧ r.method = m := by
  unfold statResult at h
  by_cases hl : vals.length < 2
  · rw [if_pos hl] at h; cases h
  rw [if_neg hl] at h
  cases h
  refine ⟨by omega, ?_, rfl, rfl, rfl, rfl, rfl, rfl, rfl⟩
  unfold fractionAbove
  rw [List.countP_eq_length_filter]

/-- **C42** A test result needs at least two test values; with fewer it is a ValueError, with two or more
it always exists. -/
theorem C42_needs_two_values (obs : ℝ) (vals : List ℝ) (n : Int) (m : String) :
    (vals.length < 2 → statResult obs vals n m = .error .valueError) ∧
    (2 ≤ vals.length → ∃ r, statResult obs vals n m = .ok r) := by
  unfold statResult
  constructor
  · intro h; rw [if_pos h]
  · intro h; rw [if_neg (by omega)]; exact ⟨_, rfl⟩

/-- **C42** The p-value is the fraction of test values strictly greater than the observed value; it lies
in [0,1] and is a multiple of one over the number of test values. -/
theorem C42_p_value_is_fraction (obs : ℝ) (vals : List ℝ) (n : Int) (m : String) (r : StatRes)
    (h : statResult obs vals n m = .ok r) :
    r.pValue = fractionAbove vals obs ∧ 0 ≤ r.pValue ∧ r.pValue ≤ 1 ∧
    ∃ k : Nat, k ≤ vals.length ∧ r.pValue = k / vals.length := by
  obtain ⟨hl, hp, -⟩ := statResult_ok h
  have hpos : (0:ℝ) < vals.length := by exact_mod_cast (by omega : 0 < vals.length)
  refine ⟨hp, ?_, ?_, _, List.length_filter_le _ _, hp⟩
  · rw [hp]; unfold fractionAbove; positivity
  · rw [hp]; unfold fractionAbove
    rw [div_le_one hpos]
    exact_mod_cast List.length_filter_le _ _

/-- **C42** A larger observed value never has a larger p-value. -/
theorem C42_p_value_antitone (obs obs' : ℝ) (vals : List ℝ) (n n' : Int) (m m' : String) (r r' : StatRes)
    (h : statResult obs vals n m = .ok r) (h' : statResult obs' vals n' m' = .ok r') (hle : obs ≤ obs') :
    r'.pValue ≤ r.pValue := by
  rw [(statResult_ok h).2.1, (statResult_ok h').2.1]
  unfold fractionAbove
  apply div_le_div_of_nonneg_right _ (by positivity)
  have : (vals.filter (fun v => decide (obs' < v))).length ≤ (vals.filter (fun v => decide (obs < v))).length := by
    rw [← List.countP_eq_length_filter, ← List.countP_eq_length_filter]
    apply List.countP_mono_left
    intro v _ hv
    simp only [decide_eq_true_eq] at hv ⊢
    linarith
  exact_mod_cast this

example : ∃ r r', statResult 1 [0, 2, 3] 3 "bootstrap" = .ok r ∧ statResult 2 [0, 2, 3] 3 "bootstrap" = .ok r' ∧ r'.pValue ≤ r.pValue := by
  obtain ⟨r, hr⟩ := (C42_needs_two_values 1 [0, 2, 3] 3 "bootstrap").2 (by simp)
  obtain ⟨r', hr'⟩ := (C42_needs_two_values 2 [0, 2, 3] 3 "bootstrap").2 (by simp)
  exact ⟨r, r', hr, hr', C42_p_value_antitone _ _ _ _ _ _ _ r r' hr hr' (by norm_num)⟩

/-- **C42** The p-value is 0 exactly if no test value exceeds the observed one, and 1 exactly if all do.
Ties count in favour of significance. -/
theorem C42_p_value_extremes (obs : ℝ) (vals : List ℝ) (n : Int) (m : String) (r : StatRes)
    (h : statResult obs vals n m = .ok r) :
    (r.pValue = 0 ↔ ∀ v ∈ vals, v ≤ obs) ∧ (r.pValue = 1 ↔ ∀ v ∈ vals, obs < v) := by
  obtain ⟨hl, hp, -⟩ := statResult_ok h
  have hpos : (0:ℝ) < vals.length := by exact_mod_cast (by omega : 0 < vals.length)
  rw [hp]; unfold fractionAbove
  constructor
  · rw [div_eq_zero_iff]
    constructor
    · intro h0 v hv
      rcases h0 with h0 | h0
      · have : (vals.filter (fun v => decide (obs < v))).length = 0 := by exact_mod_cast h0
        rw [List.length_eq_zero_iff, List.filter_eq_nil_iff] at this
        have := this v hv
        simpa using this
      · linarith
    · intro hv
      left
      have : vals.filter (fun v => decide (obs < v)) = [] := by
        rw [List.filter_eq_nil_iff]
        intro v hv'
        simpa using hv v hv'
      rw [this]; simp
  · rw [div_eq_one_iff_eq hpos.ne']
    constructor
    · intro h1 v hv
      have h1 : (vals.filter (fun v => decide (obs < v))).length = vals.length := by exact_mod_cast h1
      have := List.length_filter_eq_length_iff.1 h1 v hv
      simpa using this
    · intro hv
      have : (vals.filter (fun v => decide (obs < v))).length = vals.length :=
        List.length_filter_eq_length_iff.2 (fun v hv' => by simpa using hv v hv')
      rw [this]

example : ∃ r, statResult 3 [0, 2, 3] 3 "bootstrap" = .ok r ∧ r.pValue = 0 := by
  obtain ⟨r, hr⟩ := (C42_needs_two_values 3 [0, 2, 3] 3 "bootstrap").2 (by simp)
  exact ⟨r, hr, (C42_p_value_extremes _ _ _ _ r hr).1.2 (by simp; norm_num)⟩

/-- **C42** The order of the test values is irrelevant for every reported statistic. -/
theorem C42_order_irrelevant (obs : ℝ) (vals vals' : List ℝ) (hperm : vals.Perm vals') (n : Int)
    (m : String) (r r' : StatRes) (h : statResult obs vals n m = .ok r)
    (h' : statResult obs vals' n m = .ok r') :
    r.pValue = r'.pValue ∧ r.tScore = r'.tScore ∧ r.nullMean = r'.nullMean ∧ r.nullStd = r'.nullStd := by
  have hm : npMean vals = npMean vals' := by
    unfold npMean; rw [hperm.sum_eq, hperm.length_eq]
  have hs : npStd1 vals = npStd1 vals' := by
    unfold npStd1
    rw [hm, (hperm.map _).sum_eq, hperm.length_eq]
  obtain ⟨-, a2, a3, -, -, a6, a7, -⟩ := statResult_ok h
  obtain ⟨-, b2, b3, -, -, b6, b7, -⟩ := statResult_ok h'
  refine ⟨?_, ?_, ?_, ?_⟩
  · rw [a2, b2]; unfold fractionAbove
    rw [(hperm.filter _).length_eq, hperm.length_eq]
  · rw [a3, b3, hm, hs]
  · rw [a6, b6, hm]
  · rw [a7, b7, hs]

example : ∃ r r', statResult 1 [0, 2, 3] 3 "bootstrap" = .ok r ∧ statResult 1 [3, 0, 2] 3 "bootstrap" = .ok r' ∧ r.pValue = r'.pValue := by
  obtain ⟨r, hr⟩ := (C42_needs_two_values 1 [0, 2, 3] 3 "bootstrap").2 (by simp)
  obtain ⟨r', hr'⟩ := (C42_needs_two_values 1 [3, 0, 2] 3 "bootstrap").2 (by simp)
  exact ⟨r, r', hr, hr', (C42_order_irrelevant _ _ _ (List.perm_append_comm (l₁ := [0, 2]) (l₂ := [3])) _ _ r r' hr hr').1⟩

theorem npStd1_pos_iff (vals : List ℝ) (hl : 2 ≤ vals.length) :
    0 < npStd1 vals ↔ ∃ v ∈ vals, ∃ w ∈ vals, v ≠ w := by
  have hden : (0:ℝ) < (vals.length : ℝ) - 1 := by
    have : (2:ℝ) ≤ vals.length := by exact_mod_cast hl
    linarith
  have hlen : (0:ℝ) < vals.length := by linarith
  unfold npStd1
  rw [Real.sqrt_pos]
  constructor
  · intro h
    by_contra hc
    push Not at hc
    have hall : ∀ v ∈ vals, v = npMean vals := by
      intro v hv
      have : vals = List.replicate vals.length v := List.eq_replicate_iff.2 ⟨rfl, fun w hw => hc w hw v hv⟩
      unfold npMean
      rw [this]
      simp only [List.sum_replicate, List.length_replicate, nsmul_eq_mul]
      rw [mul_comm, mul_div_assoc, div_self hlen.ne', mul_one]
    have hz : (vals.map (fun x => (x - npMean vals) ^ 2)).sum = 0 := by
      apply List.sum_eq_zero
      intro x hx
      obtain ⟨v, hv, rfl⟩ := List.mem_map.1 hx
      rw [hall v hv]; simp [← hall v hv]
    rw [hz, zero_div] at h
    exact lt_irrefl _ h
  · rintro ⟨v, hv, w, hw, hne⟩
    apply div_pos _ hden
    have hnn : ∀ x ∈ vals.map (fun x => (x - npMean vals) ^ 2), 0 ≤ x := by
      intro x hx
      obtain ⟨u, -, rfl⟩ := List.mem_map.1 hx
      positivity
    rcases (List.sum_nonneg hnn).lt_or_eq with h | h
    · exact h
    · exfalso
      have hz : ∀ u ∈ vals, u = npMean vals := by
        intro u hu
        have hle := List.single_le_sum hnn _ (List.mem_map.2 ⟨u, hu, rfl⟩)
        rw [← h] at hle
        have : (u - npMean vals) ^ 2 = 0 := le_antisymm hle (by positivity)
        have := pow_eq_zero_iff (two_ne_zero) |>.1 this
        linarith
      exact hne ((hz v hv).trans (hz w hw).symm)

/-- **C42** The t-score is `(observed − mean) / std` (std with `n−1`), and is defined exactly if the test
values are not all equal (otherwise `nan`). -/
theorem C42_t_score (obs : ℝ) (vals : List ℝ) (n : Int) (m : String) (r : StatRes)
    (h : statResult obs vals n m = .ok r) :
    ((∃ v ∈ vals, ∃ w ∈ vals, v ≠ w) →
      r.tScore = some ((obs - vals.sum / vals.length) /
        Real.sqrt ((vals.map (fun x => (x - vals.sum / vals.length) ^ 2)).sum / ((vals.length : ℝ) - 1)))) ∧
    ((∀ v ∈ vals, ∀ w ∈ vals, v = w) → r.tScore = none) := by
  obtain ⟨hl, -, ht, -⟩ := statResult_ok h
  constructor
  · intro hne
    rw [ht, if_pos ((npStd1_pos_iff vals hl).2 hne)]
    rfl
  · intro heq
    rw [ht, if_neg]
    intro hpos
    obtain ⟨v, hv, w, hw, hne⟩ := (npStd1_pos_iff vals hl).1 hpos
    exact hne (heq v hv w hw)

example : ∃ r, statResult 1 [4, 4, 4] 3 "bootstrap" = .ok r ∧ r.tScore = none := by
  obtain ⟨r, hr⟩ := (C42_needs_two_values 1 [4, 4, 4] 3 "bootstrap").2 (by simp)
  exact ⟨r, hr, (C42_t_score _ _ _ _ r hr).2 (by simp)⟩

/-- **C42** A positive (negative) t-score means the observed value is above (below) the mean of the test
values. -/
theorem C42_t_score_sign (obs : ℝ) (vals : List ℝ) (n : Int) (m : String) (r : StatRes) (t : ℝ)
    (h : statResult obs vals n m = .ok r) (ht : r.tScore = some t) :
    (0 < t ↔ r.nullMean < obs) ∧ (t < 0 ↔ obs < r.nullMean) := by
  obtain ⟨hl, -, ht', -, -, hm, -⟩ := statResult_ok h
  rw [ht'] at ht
  split_ifs at ht with hpos
  cases ht
  rw [hm]
  constructor
  · rw [div_pos_iff_of_pos_right hpos]; exact sub_pos
  · rw [div_neg_iff]
    constructor
    · rintro (⟨_, h⟩ | ⟨h, _⟩)
      · linarith
      · linarith
    · intro h; exact Or.inr ⟨by linarith, hpos⟩

example : ∃ r t, statResult 5 [0, 2, 4] 3 "bootstrap" = .ok r ∧ r.tScore = some t ∧ 0 < t := by
  obtain ⟨r, hr⟩ := (C42_needs_two_values 5 [0, 2, 4] 3 "bootstrap").2 (by simp)
  have ht := (C42_t_score _ _ _ _ r hr).1 ⟨0, (by simp), 2, (by simp), (by norm_num)⟩
  refine ⟨r, _, hr, ht, ?_⟩
  refine ((C42_t_score_sign _ _ _ _ r _ hr ht).1).2 ?_
  rw [(statResult_ok hr).2.2.2.2.2.1, npMean]
  norm_num

/-- **C42** Arguments of a test: the number of tests must be an integer ≥ 1 (a float, a boolean from the
configuration, a negative number is a ValueError). -/
theorem C42_argument_validation (cfg : Settings) (m : String) (n : PyArg) :
    testArgs cfg (some n) (some m) =
      (match n with
       | .int k => if 1 ≤ k then .ok (k, m) else .error .valueError
       | _ => .error .valueError) := by
  cases n with
  | int k =>
    simp only [testArgs, nTestsArg, methodArg, bind, Except.bind, PyArg.posInt, PyArg.val, pure,
      Except.pure, decide_eq_true_eq]
    by_cases hk : 1 ≤ k
    · rw [if_pos hk, if_pos (by omega)]
    · rw [if_neg hk, if_neg (by omega)]
  | num x => simp [testArgs, nTestsArg, methodArg, bind, Except.bind, PyArg.posInt]
  | other => simp [testArgs, nTestsArg, methodArg, bind, Except.bind, PyArg.posInt]

/-- **C42** Omitted arguments are taken from the configuration at call time: by default 200 permutations,
and after any history of configuration calls the last accepted setting. -/
theorem C42_defaults_from_config (ops : List CfgOp) :
    testArgs (cfgRun []) none none = .ok (200, "permutation_test") ∧
    testArgs (cfgRun (ops ++ [.reset])) none none = .ok (200, "permutation_test") ∧
    (∀ n : Int, 1 ≤ n → ∀ m, m = "permutation_test" ∨ m = "bootstrap" →
      testArgs (cfgRun (ops ++ [.set "statistical_test_n_tests" (.int n),
        .set "statistical_test_method" (.str m)])) none none = .ok (n, m)) := by
  have h0 : testArgs (cfgRun []) none none = .ok (200, "permutation_test") := by
    simp [testArgs, nTestsArg, methodArg, Config.get, cfgRun, defaultSettings, bind, Except.bind, Except.map,
      CfgVal.asNTests, CfgVal.asMethod, PyArg.posInt, PyArg.val, pure, Except.pure]
  refine ⟨h0, ?_, ?_⟩
  · have : cfgRun (ops ++ [.reset]) = cfgRun [] := by rw [cfgRun, List.foldl_append]; rfl
    rw [this, h0]
  · intro n hn m hm
    have h1 := cfg_isSome ops "statistical_test_n_tests" (by simp [CfgKeys])
    have h2 := cfg_isSome ops "statistical_test_method" (by simp [CfgKeys])
    have h3 : cfgRun (ops ++ [.set "statistical_test_n_tests" (.int n),
        .set "statistical_test_method" (.str m)]) =
        (Config.set (Config.set (cfgRun ops) "statistical_test_n_tests" (.int n)).2
            "statistical_test_method" (.str m)).2 := by
      rw [cfgRun, List.foldl_append]; rfl
    rw [h3]
    generalize cfgRun ops = s at h1 h2
    have e1 : (Config.set s "statistical_test_n_tests" (.int n)).2 =
        fun k => if k = "statistical_test_n_tests" then some (.int n) else s k := by
      unfold Config.set
      rw [if_neg (by rw [Option.isSome_iff_ne_none] at h1; simpa using h1), if_neg (by simp [cfgIsInstance])]
    rw [e1]
    have e2 : (Config.set (fun k => if k = "statistical_test_n_tests" then some (CfgVal.int n) else s k)
        "statistical_test_method" (.str m)).2 =
        fun k => if k = "statistical_test_method" then some (.str m) else
          if k = "statistical_test_n_tests" then some (CfgVal.int n) else s k := by
      unfold Config.set
      rw [if_neg (by rw [Option.isSome_iff_ne_none] at h2; simpa using h2), if_neg (by rcases hm with rfl | rfl <;> simp [cfgAllowed])]
    rw [e2]
    have hn' : 0 < n := by omega
    simp [testArgs, nTestsArg, methodArg, Config.get, bind, Except.bind, Except.map,
      CfgVal.asNTests, CfgVal.asMethod, PyArg.posInt, PyArg.val, pure, Except.pure, hn']

example := (C42_defaults_from_config [.set "base" (.int 10), .reset]).2.2 50 (by decide) "bootstrap" (.inr rfl)

section
variable {D G : Type}

/-- **C42** What a successful `statistical_test` of a mutual-information object reports: as many test
values as requested (at least two), the statistics of exactly these values, and as observed value the
result of the object. -/
theorem C42_mi_test_report (comp : MICalc D G) (extract : List D → Except Exc (List ℝ))
    (R : Resampler D G) (cfg : Settings) (nT : Option PyArg) (m : Option String)
    (o : EstObj (MIInner D G) ℝ) (r : StatRes)
    (h : (statisticalTestMI comp extract R cfg nT m o).1 = .ok r) :
    testArgs cfg nT m = .ok (r.nTests, r.method) ∧ 2 ≤ r.nTests ∧
    (r.testValues.length : Int) = r.nTests ∧
    r.pValue = fractionAbove r.testValues r.observed ∧
    (stepMI comp extract R cfg (statisticalTestMI comp extract R cfg nT m o).2 (.acc .result)).1 =
      .ok (.acc (.num r.observed)) := by
  have hs := (statTestMI_spec comp R cfg nT m o.inner).1
  unfold statisticalTestMI at h ⊢
  cases ht : statTestMI comp R cfg nT m o.inner with
  | mk x s =>
    rw [ht] at h hs
    cases x with
    | error e => cases h
    | ok p =>
      obtain ⟨n, m', vs⟩ := p
      obtain ⟨h1, h2, h3, h4, h5, h6⟩ := hs n m' vs rfl
      simp only at h ⊢
      cases hg : EstObj.globalVal (miCode comp extract) { o with inner := s } with
      | mk q o' =>
        rw [hg] at h
        cases q with
        | error e => cases h
        | ok v =>
          simp only at h ⊢
          obtain ⟨a1, a2, a3, a4, a5, a6, a7, a8, a9⟩ := statResult_ok h
          rw [a8, a9, a4, a5]
          refine ⟨h5, by omega, h2, a2, ?_⟩
          have := globalVal_ok _ hg
          simp only [stepMI, EstObj.step, EstObj.result]
          rw [globalVal_cached _ this]; rfl

/-- **C42** The same for transfer entropy. -/
theorem C42_te_test_report (comp : TECalc G) (extract : TEFlags → Except Exc (List ℝ))
    (cfg : Settings) (nT : Option PyArg) (m : Option String)
    (o : EstObj (TEInner G) ℝ) (r : StatRes)
    (h : (statisticalTestTE comp extract cfg nT m o).1 = .ok r) :
    testArgs cfg nT m = .ok (r.nTests, r.method) ∧ 2 ≤ r.nTests ∧
    (r.testValues.length : Int) = r.nTests ∧
    r.pValue = fractionAbove r.testValues r.observed ∧
    (stepTE comp extract cfg (statisticalTestTE comp extract cfg nT m o).2 (.acc .result)).1 =
      .ok (.acc (.num r.observed)) := by
  have hs := (statTestTE_spec comp cfg nT m o.inner).1
  unfold statisticalTestTE at h ⊢
  cases ht : statTestTE comp cfg nT m o.inner with
  | mk x s =>
    rw [ht] at h hs
    cases x with
    | error e => cases h
    | ok p =>
      obtain ⟨n, m', vs⟩ := p
      obtain ⟨h1, h2, h3, h4, h5⟩ := hs n m' vs rfl
      simp only at h ⊢
      cases hg : EstObj.globalVal (teCode comp extract) { o with inner := s } with
      | mk q o' =>
        rw [hg] at h
        cases q with
        | error e => cases h
        | ok v =>
          simp only at h ⊢
          obtain ⟨a1, a2, a3, a4, a5, a6, a7, a8, a9⟩ := statResult_ok h
          rw [a8, a9, a4, a5]
          refine ⟨h4, by omega, h2, a2, ?_⟩
          have := globalVal_ok _ hg
          simp only [stepTE, EstObj.step, EstObj.result]
          rw [globalVal_cached _ this]; rfl

/-- **C42** (negative) A single test is accepted as an argument but can never succeed: `n_tests = 1`
always raises, after having done the resampling. -/
theorem C42_single_test_always_raises (comp : MICalc D G) (extract : List D → Except Exc (List ℝ))
    (R : Resampler D G) (cfg : Settings) (m : String) (o : EstObj (MIInner D G) ℝ) :
    testArgs cfg (some (.int 1)) (some m) = .ok (1, m) ∧
    ∃ e, (statisticalTestMI comp extract R cfg (some (.int 1)) (some m) o).1 = .error e := by
  refine ⟨by rw [C42_argument_validation]; rfl, ?_⟩
  cases h : (statisticalTestMI comp extract R cfg (some (.int 1)) (some m) o).1 with
  | error e => exact ⟨e, rfl⟩
  | ok r =>
    exfalso
    obtain ⟨h1, h2, -⟩ := C42_mi_test_report comp extract R cfg _ _ o r h
    rw [C42_argument_validation] at h1
    simp only [le_refl, if_true, Except.ok.injEq, Prod.mk.injEq] at h1
    omega

example (extract : List (List Int) → Except Exc (List ℝ)) (R : Resampler (List Int) Nat) (cfg : Settings) :=
  C42_single_test_always_raises (fun _ g => (.ok (.scalar 0), g)) extract R cfg "bootstrap" (freshMI [[1, 2], [0, 3]] 7)

/-- **C42** A mutual-information test needs exactly two variables. -/
theorem C42_mi_needs_two_variables (comp : MICalc D G) (extract : List D → Except Exc (List ℝ))
    (R : Resampler D G) (cfg : Settings) (n : Int) (hn : 1 ≤ n) (m : String)
    (o : EstObj (MIInner D G) ℝ) (h : o.inner.data.length ≠ 2) :
    statisticalTestMI comp extract R cfg (some (.int n)) (some m) o = (.error .unsupportedOperation, o) := by
  unfold statisticalTestMI statTestMI
  rw [C42_argument_validation]
  simp only [hn, if_true, ne_eq, h, not_false_eq_true]

example (extract : List (List Int) → Except Exc (List ℝ)) (R : Resampler (List Int) Nat) (cfg : Settings) :=
  C42_mi_needs_two_variables (fun _ g => (.ok (.scalar 0), g)) extract R cfg 20 (by decide) "bootstrap" (freshMI [[1, 2], [0, 3], [1, 1]] 7) (by simp [freshMI])

/-- **C42** An unknown method is a ValueError that leaves data and results alone. -/
theorem C42_unknown_method (comp : MICalc D G) (extract : List D → Except Exc (List ℝ))
    (R : Resampler D G) (cfg : Settings) (n : Int) (hn : 1 ≤ n) (m : String)
    (o : EstObj (MIInner D G) ℝ) (h : o.inner.data.length = 2) (hm : m ≠ "permutation_test")
    (hm' : m ≠ "bootstrap") :
    (statisticalTestMI comp extract R cfg (some (.int n)) (some m) o).1 = .error .valueError ∧
    (statisticalTestMI comp extract R cfg (some (.int n)) (some m) o).2.inner.data = o.inner.data := by
  unfold statisticalTestMI statTestMI
  rw [C42_argument_validation]
  simp only [hn, if_true, ne_eq, h, not_true_eq_false, if_false, testMI, hm, hm']
  exact ⟨trivial, trivial⟩

example (extract : List (List Int) → Except Exc (List ℝ)) (R : Resampler (List Int) Nat) (cfg : Settings) :=
  C42_unknown_method (fun _ g => (.ok (.scalar 0), g)) extract R cfg 20 (by decide) "jackknife" (freshMI [[1, 2], [0, 3]] 7) rfl (by decide) (by decide)

end

example : ∃ r, statResult 1 [0, 2, 3] 3 "bootstrap" = .ok r ∧ r.pValue = 2 / 3 := by
  obtain ⟨r, hr⟩ := (C42_needs_two_values 1 [0, 2, 3] 3 "bootstrap").2 (by simp)
  refine ⟨r, hr, ?_⟩
  rw [(C42_p_value_is_fraction _ _ _ _ r hr).1]
  unfold fractionAbove
  have : [(0:ℝ), 2, 3].filter (fun v => decide ((1:ℝ) < v)) = [2, 3] := by
    simp
  simp only [this]; norm_num

/-! ## C43 -/

/-- the sorted test values -/
noncomputable def sortedVals (vals : List ℝ) : List ℝ := vals.mergeSort (fun a b => decide (a ≤ b))

theorem sortedVals_perm (vals : List ℝ) : (sortedVals vals).Perm vals := List.mergeSort_perm _ _

theorem sortedVals_length (vals : List ℝ) : (sortedVals vals).length = vals.length :=
  (sortedVals_perm vals).length_eq

theorem sortedVals_mono (vals : List ℝ) {i j : Nat} (hij : i ≤ j) (hj : j < vals.length) :
    (sortedVals vals).getD i 0 ≤ (sortedVals vals).getD j 0 := by
  have hs : (sortedVals vals).Pairwise (fun a b : ℝ => a ≤ b) := by
    have := List.pairwise_mergeSort (le := fun a b : ℝ => decide (a ≤ b))
      (fun a b c h1 h2 => by simp only [decide_eq_true_eq] at *; exact le_trans h1 h2)
      (fun a b => by simp only [Bool.or_eq_true, decide_eq_true_eq]; exact le_total a b) vals
    exact this.imp (fun h => by simpa using h)
  have hj' : j < (sortedVals vals).length := by rw [sortedVals_length]; exact hj
  have hi' : i < (sortedVals vals).length := by omega
  rw [List.getD_eq_getElem?_getD, List.getD_eq_getElem?_getD, List.getElem?_eq_getElem hi',
    List.getElem?_eq_getElem hj']
  simp only [Option.getD_some]
  rcases Nat.lt_or_ge i j with h | h
  · exact (List.pairwise_iff_getElem.1 hs) i j hi' hj' h
  · have : i = j := by omega
    subst this; exact le_refl _

/-- linear interpolation at the real position `v` -/
noncomputable def interp (vals : List ℝ) (v : ℝ) : ℝ :=
  (sortedVals vals).getD ⌊v⌋.toNat 0 +
    ((sortedVals vals).getD (min (⌊v⌋.toNat + 1) ((sortedVals vals).length - 1)) 0
      - (sortedVals vals).getD ⌊v⌋.toNat 0) * (v - (⌊v⌋.toNat : ℝ))

theorem npPercentile_eq (vals : List ℝ) (q : ℝ) (h0 : 0 ≤ q) (h1 : q ≤ 100) :
    npPercentile vals q = .ok (interp vals (q / 100 * ((vals.length : ℝ) - 1))) := by
  unfold npPercentile
  rw [if_neg (by push Not; exact ⟨h0, h1⟩)]
  show _ = Except.ok (interp vals _)
  unfold interp
  rw [show vals.mergeSort (fun a b => decide (a ≤ b)) = sortedVals vals from rfl]
  simp only [sortedVals_length]

theorem interp_bounds (vals : List ℝ) (v : ℝ) (h0 : 0 ≤ v) (h1 : v ≤ (vals.length : ℝ) - 1) :
    (sortedVals vals).getD ⌊v⌋.toNat 0 ≤ interp vals v ∧
    interp vals v ≤ (sortedVals vals).getD (min (⌊v⌋.toNat + 1) (vals.length - 1)) 0 := by
  have hf0 : 0 ≤ ⌊v⌋ := Int.floor_nonneg.2 h0
  have hcast : ((⌊v⌋.toNat : Nat) : ℝ) = (⌊v⌋ : ℝ) := by
    have : ((⌊v⌋.toNat : Nat) : Int) = ⌊v⌋ := Int.toNat_of_nonneg hf0
    exact_mod_cast this
  have hlt : ⌊v⌋.toNat < vals.length := by
    have : (⌊v⌋.toNat : ℝ) ≤ (vals.length : ℝ) - 1 := by
      rw [hcast]; exact le_trans (Int.floor_le v) h1
    have : ((⌊v⌋.toNat + 1 : Nat) : ℝ) ≤ vals.length := by push_cast; linarith
    have := Nat.cast_le.1 this
    omega
  have hm : (sortedVals vals).getD ⌊v⌋.toNat 0 ≤
      (sortedVals vals).getD (min (⌊v⌋.toNat + 1) (vals.length - 1)) 0 :=
    sortedVals_mono vals (by omega) (by omega)
  have hfr0 : 0 ≤ v - (⌊v⌋.toNat : ℝ) := by rw [hcast]; linarith [Int.floor_le v]
  have hfr1 : v - (⌊v⌋.toNat : ℝ) ≤ 1 := by rw [hcast]; linarith [Int.lt_floor_add_one v]
  unfold interp
  rw [sortedVals_length]
  constructor
  · nlinarith
  · nlinarith

theorem interp_mono (vals : List ℝ) (v w : ℝ) (h0 : 0 ≤ v) (hvw : v ≤ w)
    (h1 : w ≤ (vals.length : ℝ) - 1) : interp vals v ≤ interp vals w := by
  have hf0 : 0 ≤ ⌊v⌋ := Int.floor_nonneg.2 h0
  have hfw : 0 ≤ ⌊w⌋ := Int.floor_nonneg.2 (le_trans h0 hvw)
  rcases (Int.floor_le_floor hvw).lt_or_eq with hlt | heq
  · have hb1 := (interp_bounds vals v h0 (le_trans hvw h1)).2
    have hb2 := (interp_bounds vals w (le_trans h0 hvw) h1).1
    refine le_trans hb1 (le_trans (sortedVals_mono vals ?_ ?_) hb2)
    · omega
    · have hcast : ((⌊w⌋.toNat : Nat) : ℝ) = (⌊w⌋ : ℝ) := by
        have : ((⌊w⌋.toNat : Nat) : Int) = ⌊w⌋ := Int.toNat_of_nonneg hfw
        exact_mod_cast this
      have : ((⌊w⌋.toNat + 1 : Nat) : ℝ) ≤ vals.length := by
        push_cast; rw [hcast]; linarith [Int.floor_le w]
      have := Nat.cast_le.1 this
      omega
  · have hb := interp_bounds vals v h0 (le_trans hvw h1)
    have hm := le_trans hb.1 hb.2
    unfold interp
    rw [← heq, sortedVals_length]
    have : (v - (⌊v⌋.toNat : ℝ)) ≤ (w - (⌊v⌋.toNat : ℝ)) := by linarith
    nlinarith

/-- **C43** A percentile is defined exactly for 0 ≤ q ≤ 100 (otherwise ValueError), is non-decreasing in
`q`, and runs from the smallest to the largest test value. -/
theorem C43_percentile (vals : List ℝ) (hv : vals ≠ []) :
    (∀ q, ¬ (0 ≤ q ∧ q ≤ 100) → npPercentile vals q = .error .valueError) ∧
    (∀ q, 0 ≤ q → q ≤ 100 → ∃ a, npPercentile vals q = .ok a) ∧
    (∀ q q' a a', q ≤ q' → npPercentile vals q = .ok a → npPercentile vals q' = .ok a' → a ≤ a') ∧
    (∃ a, npPercentile vals 0 = .ok a ∧ a ∈ vals ∧ ∀ v ∈ vals, a ≤ v) ∧
    (∃ a, npPercentile vals 100 = .ok a ∧ a ∈ vals ∧ ∀ v ∈ vals, v ≤ a) := by
  have hlen : 1 ≤ vals.length := by
    cases vals with
    | nil => exact absurd rfl hv
    | cons a l => simp
  have hlen' : (1:ℝ) ≤ vals.length := by exact_mod_cast hlen
  have herr : ∀ q, ¬ (0 ≤ q ∧ q ≤ 100) → npPercentile vals q = .error .valueError := by
    intro q hq
    unfold npPercentile
    rw [if_pos]
    by_contra hc
    push Not at hc
    exact hq hc
  have hget : ∀ i, i < vals.length → (sortedVals vals).getD i 0 ∈ vals := by
    intro i hi
    have hi' : i < (sortedVals vals).length := by rw [sortedVals_length]; exact hi
    rw [List.getD_eq_getElem?_getD, List.getElem?_eq_getElem hi']
    exact (sortedVals_perm vals).mem_iff.1 (List.getElem_mem _)
  have hidx : ∀ v ∈ vals, ∃ i, i < vals.length ∧ (sortedVals vals).getD i 0 = v := by
    intro v hv
    obtain ⟨i, hi, he⟩ := List.getElem_of_mem ((sortedVals_perm vals).mem_iff.2 hv)
    refine ⟨i, by rw [← sortedVals_length]; exact hi, ?_⟩
    rw [List.getD_eq_getElem?_getD, List.getElem?_eq_getElem hi]; exact he
  refine ⟨herr, fun q h0 h1 => ⟨_, npPercentile_eq vals q h0 h1⟩, ?_, ?_, ?_⟩
  · intro q q' a a' hqq ha ha'
    have hq : 0 ≤ q ∧ q ≤ 100 := by by_contra hc; rw [herr q hc] at ha; cases ha
    have hq' : 0 ≤ q' ∧ q' ≤ 100 := by by_contra hc; rw [herr q' hc] at ha'; cases ha'
    rw [npPercentile_eq vals q hq.1 hq.2] at ha
    rw [npPercentile_eq vals q' hq'.1 hq'.2] at ha'
    cases ha; cases ha'
    apply interp_mono
    · have := hq.1; have : 0 ≤ (vals.length : ℝ) - 1 := by linarith
      positivity
    · apply mul_le_mul_of_nonneg_right _ (by linarith)
      linarith
    · have : q' / 100 ≤ 1 := by linarith [hq'.2]
      nlinarith
  · refine ⟨(sortedVals vals).getD 0 0, ?_, hget 0 (by omega), ?_⟩
    · rw [npPercentile_eq vals 0 (le_refl _) (by norm_num)]
      simp [interp]
    · intro v hv
      obtain ⟨i, hi, he⟩ := hidx v hv
      rw [← he]; exact sortedVals_mono vals (by omega) hi
  · refine ⟨(sortedVals vals).getD (vals.length - 1) 0, ?_, hget _ (by omega), ?_⟩
    · rw [npPercentile_eq vals 100 (by norm_num) (le_refl _)]
      have hv : (100:ℝ) / 100 * ((vals.length : ℝ) - 1) = ((vals.length - 1 : Nat) : ℝ) := by
        rw [Nat.cast_sub hlen]; norm_num
      rw [hv]
      simp [interp]
    · intro v hv
      obtain ⟨i, hi, he⟩ := hidx v hv
      rw [← he]; exact sortedVals_mono vals (by omega) (by omega)

example := C43_percentile [3, 1, 2] (by simp)

/-- **C43** Confidence intervals exist exactly for levels strictly between 0 and 100; they are ordered,
lie between the smallest and the largest test value, contain the median, and widen with the level. -/
theorem C43_confidence_interval (vals : List ℝ) (hv : vals ≠ []) :
    (∀ l, ¬ (0 < l ∧ l < 100) → confidenceInterval vals l = .error .valueError) ∧
    (∀ l, 0 < l → l < 100 → ∃ c, confidenceInterval vals l = .ok c ∧ c.1 ≤ c.2 ∧
      (∃ a ∈ vals, a ≤ c.1) ∧ (∃ b ∈ vals, c.2 ≤ b) ∧
      (∀ med, npPercentile vals 50 = .ok med → c.1 ≤ med ∧ med ≤ c.2)) ∧
    (∀ l l' c c', l ≤ l' → confidenceInterval vals l = .ok c → confidenceInterval vals l' = .ok c' →
      c'.1 ≤ c.1 ∧ c.2 ≤ c'.2) := by
  obtain ⟨-, hex, hmono, ⟨amin, hmin, hminmem, -⟩, ⟨amax, hmax, hmaxmem, -⟩⟩ := C43_percentile vals hv
  have herr : ∀ l, ¬ (0 < l ∧ l < 100) → confidenceInterval vals l = .error .valueError := by
    intro l hl; unfold confidenceInterval; rw [if_pos hl]
  have hok : ∀ l, 0 < l → l < 100 → ∃ a b, npPercentile vals ((100 - l) / 2) = .ok a ∧
      npPercentile vals (100 - (100 - l) / 2) = .ok b ∧ confidenceInterval vals l = .ok (a, b) := by
    intro l h0 h1
    obtain ⟨a, ha⟩ := hex ((100 - l) / 2) (by linarith) (by linarith)
    obtain ⟨b, hb⟩ := hex (100 - (100 - l) / 2) (by linarith) (by linarith)
    refine ⟨a, b, ha, hb, ?_⟩
    unfold confidenceInterval
    rw [if_neg (not_not.2 ⟨h0, h1⟩)]
    simp only [ha, hb, bind, Except.bind, pure, Except.pure]
  refine ⟨herr, ?_, ?_⟩
  · intro l h0 h1
    obtain ⟨a, b, ha, hb, hc⟩ := hok l h0 h1
    refine ⟨(a, b), hc, hmono _ _ a b (by linarith) ha hb,
      ⟨amin, hminmem, hmono _ _ amin a (by linarith) hmin ha⟩,
      ⟨amax, hmaxmem, hmono _ _ b amax (by linarith) hb hmax⟩, ?_⟩
    intro med hm
    exact ⟨hmono _ _ a med (by linarith) ha hm, hmono _ _ med b (by linarith) hm hb⟩
  · intro l l' c c' hll hc hc'
    have hl : 0 < l ∧ l < 100 := by by_contra h; rw [herr l h] at hc; cases hc
    have hl' : 0 < l' ∧ l' < 100 := by by_contra h; rw [herr l' h] at hc'; cases hc'
    obtain ⟨a, b, ha, hb, he⟩ := hok l hl.1 hl.2
    obtain ⟨a', b', ha', hb', he'⟩ := hok l' hl'.1 hl'.2
    rw [he] at hc; rw [he'] at hc'
    cases hc; cases hc'
    exact ⟨hmono _ _ a' a (by linarith) ha' ha, hmono _ _ b b' (by linarith) hb hb'⟩

example := (C43_confidence_interval [3, 1, 2] (by simp)).2.1 95 (by norm_num) (by norm_num)

/-- **C43** The interval does not depend on the order of the test values. -/
theorem C43_order_irrelevant (vals vals' : List ℝ) (h : vals.Perm vals') (l : ℝ) :
    confidenceInterval vals l = confidenceInterval vals' l := by
  have hs : vals.mergeSort (fun a b => decide (a ≤ b)) = vals'.mergeSort (fun a b => decide (a ≤ b)) := by
    have sp : ∀ xs : List ℝ, (xs.mergeSort (fun a b => decide (a ≤ b))).Pairwise (fun a b : ℝ => a ≤ b) := by
      intro xs
      have := List.pairwise_mergeSort (le := fun a b : ℝ => decide (a ≤ b))
        (fun a b c h1 h2 => by simp only [decide_eq_true_eq] at *; exact le_trans h1 h2)
        (fun a b => by simp only [Bool.or_eq_true, decide_eq_true_eq]; exact le_total a b) xs
      exact this.imp (fun h => by simpa using h)
    exact List.Perm.eq_of_pairwise (fun a b _ _ h1 h2 => le_antisymm h1 h2) (sp vals) (sp vals')
      ((List.mergeSort_perm _ _).trans (h.trans (List.mergeSort_perm _ _).symm))
  have hp : ∀ q, npPercentile vals q = npPercentile vals' q := by
    intro q; unfold npPercentile; simp only [hs]
  unfold confidenceInterval
  simp only [hp]

example := C43_order_irrelevant [3, 1, 2] [1, 3, 2] (List.Perm.swap _ _ _) 95

end Verif
