import Verif.Props.StatTest3

/-!
# C44: the statistical tests of valid data do succeed

The statements of `StatTest3` speak about the outcome `.ok r` of a test.  Here: for valid data, at least two tests and a known
method there always is such an outcome, for every generator and every state of it, with the requested number of test values.
-/

namespace Verif

section General
variable {D G : Type}

theorem miLoop_succeeds (comp : MICalc D G) (rs : D → G → D × G) (x y : D)
    (ht : ∀ g g', ∃ v, (comp [(rs x g).1, y] g').1 = .ok (.scalar v)) (n : Nat) (s : MIInner D G) (h : s.orig = some [x, y]) :
    ∃ vs, (miLoop comp rs n s).1 = .ok vs := by
  induction n generalizing s with
  | zero => exact ⟨[], rfl⟩
  | succ n ih =>
    have h2 := miSelection_orig comp rs s
    have h1 : ∃ v, (miSelection comp rs s).1 = .ok v := by
      unfold miSelection
      rw [h]
      simp only
      obtain ⟨v, hv⟩ := ht s.rng (rs x s.rng).2
      split
      · rename_i hc; rw [hc] at hv; cases hv
      · rename_i hc; rw [hc] at hv; cases hv; exact ⟨v, rfl⟩
    obtain ⟨v, hv⟩ := h1
    unfold miLoop
    cases hm : miSelection comp rs s with
    | mk r s1 =>
      rw [hm] at hv h2
      cases r with
      | error e => cases hv
      | ok w =>
        obtain ⟨vs, hvs⟩ := ih s1 (h2.trans h)
        simp only
        cases hl : miLoop comp rs n s1 with
        | mk r2 s2 =>
          rw [hl] at hvs
          cases r2 with
          | error e => cases hvs
          | ok ws => exact ⟨_, rfl⟩

theorem statResult_fields (v : ℝ) (vs : List ℝ) (n : Int) (m : String) (h : 2 ≤ vs.length) :
    ∃ r, statResult v vs n m = .ok r ∧ r.testValues = vs ∧ r.method = m ∧ r.nTests = n := by
  unfold statResult
  rw [if_neg (by omega)]
  exact ⟨_, rfl, rfl, rfl, rfl⟩

/-- a test of two variables succeeds when the estimator has a value for the data and for every resampling of it -/
theorem mi_test_succeeds (comp : MICalc D G) (extract : List D → Except Exc (List ℝ)) (R : Resampler D G) (cfg : Settings)
    (x y : D) (g : G) (n : Int) (hn : 2 ≤ n) (m : String) (hm : m = "permutation_test" ∨ m = "bootstrap")
    (ht : ∀ g g', ∃ v, (comp [(R.ofMethod m x g).1, y] g').1 = .ok (.scalar v))
    (ho : ∀ g, ∃ v, (comp [x, y] g).1 = .ok (.scalar v)) :
    ∃ r, (statisticalTestMI comp extract R cfg (some (.int n)) (some m) (freshMI [x, y] g)).1 = .ok r ∧
      r.testValues.length = n.toNat ∧ r.method = m ∧ r.nTests = n := by
  have hs : ∃ vs, (statTestMI comp R cfg (some (.int n)) (some m)
      (freshMI [x, y] g : EstObj (MIInner D G) ℝ).inner).1 = .ok (n, m, vs) := by
    unfold statTestMI
    rw [C42_argument_validation]
    simp only [show 1 ≤ n by omega, if_true, freshMI, List.length_cons, List.length_nil, ne_eq, not_true_eq_false, if_false]
    unfold testMI
    rcases hm with rfl | rfl
    · simp only [if_true]
      obtain ⟨vs, hvs⟩ := miLoop_succeeds comp R.permute x y ht n.toNat ⟨[x, y], some [x, y], g⟩ rfl
      cases hl : miLoop comp R.permute n.toNat (⟨[x, y], some [x, y], g⟩ : MIInner D G) with
      | mk r s1 => rw [hl] at hvs; cases r <;> cases hvs; exact ⟨_, rfl⟩
    · simp only [if_true, show ¬ ("bootstrap" = "permutation_test") from by decide, if_false]
      obtain ⟨vs, hvs⟩ := miLoop_succeeds comp R.choice x y ht n.toNat ⟨[x, y], some [x, y], g⟩ rfl
      cases hl : miLoop comp R.choice n.toNat (⟨[x, y], some [x, y], g⟩ : MIInner D G) with
      | mk r s1 => rw [hl] at hvs; cases r <;> cases hvs; exact ⟨_, rfl⟩
  obtain ⟨vs, hvs⟩ := hs
  obtain ⟨-, hlen, -, -, -, hd⟩ := (statTestMI_spec comp R cfg _ _ _).1 _ _ _ hvs
  have hlen' : vs.length = n.toNat := by omega
  unfold statisticalTestMI
  cases hst : statTestMI comp R cfg (some (.int n)) (some m) (freshMI [x, y] g : EstObj (MIInner D G) ℝ).inner with
  | mk a s =>
    rw [hst] at hvs hd
    cases hvs
    have hd' : s.data = [x, y] := hd
    obtain ⟨v, hv⟩ := ho s.rng
    have hg : (EstObj.globalVal (miCode comp extract) (⟨s, none, none⟩ : EstObj (MIInner D G) ℝ)).1 = .ok v := by
      unfold EstObj.globalVal EstObj.calculate
      simp only [miCode]
      rw [hd']
      cases hcc : comp [x, y] s.rng with
      | mk r g' => rw [hcc] at hv; cases hv; rfl
    obtain ⟨r, hr, h1, h2, h3⟩ := statResult_fields v vs n m (by omega)
    refine ⟨r, ?_, by rw [h1, hlen'], h2, h3⟩
    simp only [freshMI]
    cases hq : EstObj.globalVal (miCode comp extract) (⟨s, none, none⟩ : EstObj (MIInner D G) ℝ) with
    | mk a b => rw [hq] at hg; cases hg; exact hr

theorem teLoop_succeeds (comp : TECalc G) (f : TEFlags) (ht : ∀ g, ∃ v, (comp f g).1 = .ok (.scalar v)) (n : Nat) (s : TEInner G)
    (hs : s.flags = f) : ∃ vs, (teLoop comp n s).1 = .ok vs := by
  induction n generalizing s with
  | zero => exact ⟨[], rfl⟩
  | succ k ih =>
    unfold teLoop
    obtain ⟨v, hv⟩ := ht s.rng
    rw [hs]
    cases hcc : comp f s.rng with
    | mk r g' =>
      rw [hcc] at hv; cases hv
      simp only
      obtain ⟨vs, hvs⟩ := ih { s with rng := g' } hs
      cases hl : teLoop comp k { s with rng := g' } with
      | mk r2 s2 => rw [hs] at hl; rw [hs, hl] at hvs; rw [hl]; cases r2 <;> cases hvs; exact ⟨_, rfl⟩

/-- a test of a transfer entropy succeeds when the estimator has a value with and without resampling -/
theorem te_test_succeeds (comp : TECalc G) (extract : TEFlags → Except Exc (List ℝ)) (cfg : Settings) (g : G) (n : Int) (hn : 2 ≤ n)
    (m : String) (hm : m = "permutation_test" ∨ m = "bootstrap")
    (ht : ∀ f g, methodFlags m = some f → ∃ v, (comp f g).1 = .ok (.scalar v))
    (ho : ∀ g, ∃ v, (comp {} g).1 = .ok (.scalar v)) :
    ∃ r, (statisticalTestTE comp extract cfg (some (.int n)) (some m) (freshTE g)).1 = .ok r ∧
      r.testValues.length = n.toNat ∧ r.method = m ∧ r.nTests = n := by
  obtain ⟨f, hf⟩ : ∃ f, methodFlags m = some f := by
    rcases hm with rfl | rfl
    · exact ⟨_, rfl⟩
    · exact ⟨_, rfl⟩
  have hs : ∃ vs s, statTestTE comp cfg (some (.int n)) (some m)
      (freshTE g : EstObj (TEInner G) ℝ).inner = (.ok (n, m, vs), s) ∧ s.flags = {} := by
    unfold statTestTE
    rw [C42_argument_validation]
    simp only [show 1 ≤ n by omega, if_true]
    unfold testTE
    rw [hf]
    simp only [freshTE]
    obtain ⟨vs, hvs⟩ := teLoop_succeeds comp f (fun g => ht f g hf) n.toNat ⟨f, g⟩ rfl
    have hq := teLoop_values comp n.toNat ⟨f, g⟩ vs hvs
    cases hl : teLoop comp n.toNat (⟨f, g⟩ : TEInner G) with
    | mk r s1 =>
      rw [hl] at hvs
      cases hvs
      simp only
      have : ∃ ws, vs.mapM testValue = .ok ws := by
        refine ⟨vs.map (fun q => match testValue q with | .ok w => w | .error _ => 0), mapM_ok _ fun q hq' => ?_⟩
        obtain ⟨g', hg'⟩ := hq q hq'
        obtain ⟨v, hv⟩ := ht f g' hf
        rw [hv] at hg'; cases hg'; rfl
      obtain ⟨ws, hws⟩ := this
      rw [hws]
      exact ⟨ws, _, rfl, rfl⟩
  obtain ⟨vs, s, hst, hfl⟩ := hs
  obtain ⟨-, hlen, -⟩ := (statTestTE_spec comp cfg _ _ _).1 _ _ _ (congrArg Prod.fst hst)
  have hlen' : vs.length = n.toNat := by omega
  unfold statisticalTestTE
  rw [hst]
  obtain ⟨v, hv⟩ := ho s.rng
  have hg : (EstObj.globalVal (teCode comp extract) (⟨s, none, none⟩ : EstObj (TEInner G) ℝ)).1 = .ok v := by
    unfold EstObj.globalVal EstObj.calculate
    simp only [teCode]
    rw [hfl]
    cases hcc : comp {} s.rng with
    | mk r g' => rw [hcc] at hv; cases hv; rfl
  obtain ⟨r, hr, h1, h2, h3⟩ := statResult_fields v vs n m (by omega)
  refine ⟨r, ?_, by rw [h1, hlen'], h2, h3⟩
  simp only [freshTE]
  cases hq : EstObj.globalVal (teCode comp extract) (⟨s, none, none⟩ : EstObj (TEInner G) ℝ) with
  | mk a b => rw [hq] at hg; cases hg; exact hr

end General

section Discrete
variable {G : Type}

/-- **C44** For every generator, every state of it, both methods and every number of tests from two on, the statistical test of the
plug-in (conditional) mutual information of aligned non-empty data returns a result with that many test values. -/
theorem C44_discrete_mi_test_succeeds (R : NpRng G) (xs ys zs : List Int) (h : xs.length = ys.length) (h2 : ys.length = zs.length)
    (hne : xs ≠ []) (hov : xs.length < 2 ^ 32) (b : Base) (hb : b.Std) (extract : List (List Int) → Except Exc (List ℝ))
    (cfg : Settings) (g : G) (n : Int) (hn : 2 ≤ n) (m : String) (hm : m = "permutation_test" ∨ m = "bootstrap") :
    (∃ r, (statisticalTestMI (discreteMICalc b) extract R.resampler cfg (some (.int n)) (some m) (freshMI [xs, ys] g)).1 = .ok r ∧
      r.testValues.length = n.toNat ∧ r.method = m ∧ r.nTests = n) ∧
    (∃ r, (statisticalTestMI (discreteCMICalc zs b) extract R.resampler cfg (some (.int n)) (some m)
        (freshMI [xs, ys] g)).1 = .ok r ∧
      r.testValues.length = n.toNat ∧ r.method = m ∧ r.nTests = n) := by
  have hp2 : ∀ xs' : List Int, xs'.length = xs.length → xs' ≠ [] ∧ xs'.length ^ 2 < 2 ^ 64 := by
    intro xs' hl
    refine ⟨fun h0 => ?_, ?_⟩
    · subst h0; exact hne (List.length_eq_zero_iff.1 hl.symm)
    · rw [hl]
      have : xs.length ^ 2 < (2 ^ 32) ^ 2 := Nat.pow_lt_pow_left hov (by norm_num)
      simpa [← pow_mul] using this
  have hmi : ∀ xs' : List Int, xs'.length = xs.length → ∀ g : G, ∃ v, (discreteMICalc b [xs', ys] g).1 = .ok (.scalar v) := by
    intro xs' hl g
    have e := mi2dInt_std xs' ys (hl.trans h) (hp2 _ hl).1 (hp2 _ hl).2 hb
    simp only [discreteMICalc, miGlobal]
    rw [e]
    exact ⟨_, rfl⟩
  have hcmi : ∀ xs' : List Int, xs'.length = xs.length → ∀ g : G, ∃ v, (discreteCMICalc zs b [xs', ys] g).1 = .ok (.scalar v) := by
    intro xs' hl g
    have e := cmiNdInt_pair xs' ys zs (hl.trans h) h2 (hp2 _ hl).1 (hp2 _ hl).2 hb.valid
    simp only [discreteCMICalc]
    rw [e]
    exact ⟨_, rfl⟩
  exact ⟨mi_test_succeeds _ _ _ _ _ _ _ _ hn _ hm (fun g g' => hmi _ (resampled_ofMethod R m xs g).1 g') (fun g => hmi xs rfl g),
    mi_test_succeeds _ _ _ _ _ _ _ _ hn _ hm (fun g g' => hcmi _ (resampled_ofMethod R m xs g).1 g') (fun g => hcmi xs rfl g)⟩

/-- **C44** The same for the plug-in transfer entropy of series longer than the largest delay. -/
theorem C44_discrete_te_test_succeeds (R : NpRng G) (adv : TEFlags → G → G) (source dest : List Int) (l k s : Nat) (hs : 0 < s)
    (hl : 0 < l) (hk : 0 < k) (hm : max k l * s < source.length) (hlen : source.length = dest.length) (hov : dest.length < 2 ^ 32)
    (b : Base) (hb : b.Valid) (extract : TEFlags → Except Exc (List ℝ)) (cfg : Settings) (g : G) (n : Int) (hn : 2 ≤ n) (m : String)
    (hmm : m = "permutation_test" ∨ m = "bootstrap") :
    ∃ r, (statisticalTestTE (discreteTECalc R adv source dest (teParams l k s) b) extract cfg (some (.int n)) (some m)
        (freshTE g)).1 = .ok r ∧
      r.testValues.length = n.toNat ∧ r.method = m ∧ r.nTests = n := by
  have hval : ∀ f (g : G), (teRandom R f g).Lawful →
      ∃ v, (discreteTECalc R adv source dest (teParams l k s) b f g).1 = .ok (.scalar v) := by
    intro f g hlaw
    obtain ⟨ff, gg, dd, RR, hR, _, _, _, rfl, rfl, rfl, rfl, hobs, h⟩ :=
      te_value source dest l k s hs hl hk hm hlen hov hb false hlaw
    have h3 : (discreteTECalc R adv source dest (teParams l k s) b f g).1 =
        (discreteTE source dest (teParams l k s) (some (.int 0)) none b false (teRandom R f g)).map .scalar := by
      simp only [discreteTECalc, discreteTE, teInit_zero hlen, bind, Except.bind, teParams, hobs]
      simp only [Bool.false_eq_true, if_false]
      cases combinedTE (logBase b) _ none <;> rfl
    rw [h3, h]
    exact ⟨_, rfl⟩
  refine te_test_succeeds _ extract cfg g n hn m hmm (fun f g hf => hval f g (teRandom_lawful R hf g)) (fun g => hval {} g ?_)
  exact lawful_none

/-- the hypotheses are met, and with them the statements of C44 about the test values: here the permutation test with ten shuffles -/
example (R : NpRng G) (g : G) (cfg : Settings) : ∃ r : StatRes,
    (statisticalTestMI (discreteMICalc .e) (fun _ => .error .valueError) R.resampler cfg (some (.int 10)) (some "permutation_test")
      (freshMI [[0, 1, 1, 0, 2], [1, 1, 0, 0, 1]] g)).1 = .ok r ∧ r.testValues.length = 10 ∧
    ∀ v ∈ r.testValues, ∃ xs' : List Int, xs'.Perm [0, 1, 1, 0, 2] ∧ v = Spec.mi xs' ([1, 1, 0, 0, 1] : List Int) / Base.ln .e := by
  obtain ⟨⟨r, hr, h1, h2, h3⟩, -⟩ := C44_discrete_mi_test_succeeds R [0, 1, 1, 0, 2] [1, 1, 0, 0, 1] [0, 0, 0, 0, 0] rfl rfl (by simp)
    (by norm_num) .e trivial (fun _ => .error .valueError) cfg g 10 (by norm_num) "permutation_test" (Or.inl rfl)
  refine ⟨r, hr, h1, fun v hv => ?_⟩
  obtain ⟨xs', hx, hv'⟩ := (C44_discrete_mi_values_are_resampled R [0, 1, 1, 0, 2] [1, 1, 0, 0, 1] rfl (by simp) (by norm_num) .e trivial
    _ cfg _ _ g r hr).2 v hv
  exact ⟨xs', hx.2.2 h2, hv'⟩

/-- a successful test: the data are restored (C41), the report has the meaning C42 gives it, and the values are resampled ones (C44) -/
example (R : NpRng G) (adv : TEFlags → G → G) (g : G) (cfg : Settings) : ∃ r : StatRes,
    (statisticalTestTE (discreteTECalc R adv [1, 0, 1, 1, 0] [0, 1, 0, 1, 1] (teParams 2 1 1) .e) (fun _ => .error .valueError) cfg
      (some (.int 10)) (some "bootstrap") (freshTE g)).1 = .ok r ∧
    (statisticalTestTE (discreteTECalc R adv [1, 0, 1, 1, 0] [0, 1, 0, 1, 1] (teParams 2 1 1) .e) (fun _ => .error .valueError) cfg
      (some (.int 10)) (some "bootstrap") (freshTE g)).2.inner.flags = {} ∧
    r.pValue = fractionAbove r.testValues r.observed ∧
    ∀ v ∈ r.testValues, ∃ rows', Resampled "bootstrap" (Spec.histRows ([1, 0, 1, 1, 0] : List Int) 5 2 1 2) rows' ∧
      v = Spec.cmi (Spec.futRows ([0, 1, 0, 1, 1] : List Int) 5 2 1) rows' (Spec.histRows ([0, 1, 0, 1, 1] : List Int) 5 2 1 1) / Base.ln .e := by
  obtain ⟨r, hr, h1, h2, h3⟩ := C44_discrete_te_test_succeeds R adv [1, 0, 1, 1, 0] [0, 1, 0, 1, 1] 2 1 1 (by decide) (by decide) (by decide)
    (by decide) rfl (by decide) .e trivial (fun _ => .error .valueError) cfg g 10 (by decide) "bootstrap" (.inr rfl)
  refine ⟨r, hr, (C41_te_successful_test_resets_flags _ _ _ _).1 _ _ r hr, (C42_te_test_report _ _ _ _ _ _ r hr).2.2.2.1, ?_⟩
  have h := C44_discrete_te_values_are_resampled R adv [1, 0, 1, 1, 0] [0, 1, 0, 1, 1] 2 1 1 (by decide) (by decide) (by decide)
    (by decide) rfl (by decide) .e trivial _ cfg _ _ g r hr
  rw [h2] at h
  exact h

example (R : NpRng G) (g : G) (cfg : Settings) : ∃ r : StatRes,
    (statisticalTestMI (discreteCMICalc [0, 0, 1, 0, 1] .e) (fun _ => .error .valueError) R.resampler cfg (some (.int 10)) (some "bootstrap")
      (freshMI [[0, 1, 1, 0, 2], [1, 1, 0, 0, 1]] g)).1 = .ok r ∧
    (statisticalTestMI (discreteCMICalc [0, 0, 1, 0, 1] .e) (fun _ => .error .valueError) R.resampler cfg (some (.int 10)) (some "bootstrap")
      (freshMI [[0, 1, 1, 0, 2], [1, 1, 0, 0, 1]] g)).2.inner.data = [[0, 1, 1, 0, 2], [1, 1, 0, 0, 1]] ∧
    r.pValue = fractionAbove r.testValues r.observed ∧
    r.observed = Spec.cmi ([0, 1, 1, 0, 2] : List Int) ([1, 1, 0, 0, 1] : List Int) ([0, 0, 1, 0, 1] : List Int) / Base.ln .e := by
  obtain ⟨-, r, hr, h1, h2, h3⟩ := C44_discrete_mi_test_succeeds R [0, 1, 1, 0, 2] [1, 1, 0, 0, 1] [0, 0, 1, 0, 1] rfl rfl (by simp)
    (by norm_num) .e trivial (fun _ => .error .valueError) cfg g 10 (by norm_num) "bootstrap" (Or.inr rfl)
  exact ⟨r, hr, (C41_mi_successful_test_restores_data _ _ _ _ _).1 _ _ r hr, (C42_mi_test_report _ _ _ _ _ _ _ r hr).2.2.2.1,
    (C44_discrete_cmi_values_are_resampled R [0, 1, 1, 0, 2] [1, 1, 0, 0, 1] [0, 0, 1, 0, 1] rfl rfl (by simp) (by norm_num) .e trivial
      _ cfg _ _ g r hr).1⟩

example (R : NpRng G) (adv : TEFlags → G → G) (g : G) (cfg : Settings) : ∃ r : StatRes,
    (statisticalTestTE (discreteTECalc R adv [1, 0, 1, 1, 0] [0, 1, 0, 1, 1] (teParams 2 1 1) .e) (fun _ => .error .valueError) cfg
      (some (.int 10)) (some "bootstrap") (freshTE g)).1 = .ok r ∧
    ∀ v ∈ r.testValues, ∃ g',
      v = Spec.cmi (Spec.futRows ([0, 1, 0, 1, 1] : List Int) 5 2 1)
        ((drawnRows R r.method (Spec.numRows 5 2 1) g').map (Spec.histRow ([1, 0, 1, 1, 0] : List Int) 2 1 2))
        (Spec.histRows ([0, 1, 0, 1, 1] : List Int) 5 2 1 1) / Base.ln .e := by
  obtain ⟨r, hr, -⟩ := C44_discrete_te_test_succeeds R adv [1, 0, 1, 1, 0] [0, 1, 0, 1, 1] 2 1 1 (by decide) (by decide) (by decide)
    (by decide) rfl (by decide) .e trivial (fun _ => .error .valueError) cfg g 10 (by decide) "bootstrap" (.inr rfl)
  exact ⟨r, hr, (C44_discrete_te_draws R adv [1, 0, 1, 1, 0] [0, 1, 0, 1, 1] 2 1 1 (by decide) (by decide) (by decide)
    (by decide) rfl (by decide) .e trivial _ cfg _ _ g r hr).2⟩

end Discrete

end Verif
