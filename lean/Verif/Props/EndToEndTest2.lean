import Verif.Props.EndToEndTest

/-!
# C87: statistical tests end to end
-/

set_option linter.unusedSimpArgs false

namespace Verif

open Spec

section
variable {G : Type} {E : TestEnv G} {W : World} {nT : Option PyArg} {mth : Option String} {g : G}
  {data : List PyData} {c : Option PyData} {meas : String} {a : PyName} {kw : Kw} {k : Kind} {f : Fam}

theorem dRounds_len {N n : Nat} {mm : String} {g : G} : (rounds E mm N n g).length = n := by
  induction n generalizing g with
  | zero => rfl
  | succ n ih => simp [rounds, ih]

theorem states_len {n : Nat} {g : G} : (states E n g).length = n := by
  induction n generalizing g with
  | zero => rfl
  | succ n ih => simp [states, ih]

theorem testArgs_pos {s : Settings} {t : Int × String} (h : testArgs s nT mth = .ok t) : 0 < t.1 := by
  unfold testArgs at h
  obtain ⟨n, -, h⟩ := chk_bind h
  obtain ⟨m, -, h⟩ := chk_bind h
  split_ifs at h with hp
  cases h
  cases n <;> simp [PyArg.posInt, PyArg.val] at hp ⊢
  exact hp

theorem consistent_of {obs : ℝ} {vs : List ℝ} {n : Int} {m : String} {r : StatRes} (hn : 0 < n) (hl : vs.length = n.toNat) (h : statResult obs vs n m = .ok r) :
    Summary r ∧ r.testValues = vs ∧ r.observed = obs ∧ r.nTests = n ∧ r.method = m := by
  obtain ⟨h2, hp, -, e1, e2, e3, -, e5, e6⟩ := statResult_ok h
  refine ⟨⟨?_, ?_, ?_, ?_⟩, e1, e2, e5, e6⟩
  · rw [e5]; omega
  · rw [e1, e5]; omega
  · rw [e1, e2]; exact hp
  · rw [e1, e3]; rfl

theorem vacuous_of {r : StatRes} {obs : ℝ} {vs : List ℝ} {n : Int} {m : String} (h : statResult obs vs n m = .ok r) (hv : ∀ v ∈ vs, v = obs) : Vacuous r := by
  obtain ⟨-, -, -, e1, e2, -⟩ := statResult_ok h
  refine ⟨?_, (C42_p_value_extremes _ _ _ _ _ h).1.2 (fun v hv' => (hv v hv').le), (C42_t_score _ _ _ _ _ h).2 (fun u hu w hw => ?_)⟩
  · rw [e1, e2]; exact hv
  · rw [hv u hu, hv w hw]

theorem mapM_ok_of {α β : Type} {h : α → Except Exc β} {l : List α} (e : ∀ x ∈ l, ∃ v, h x = .ok v) : ∃ vs, l.mapM h = .ok vs := by
  induction l with
  | nil => exact ⟨[], rfl⟩
  | cons x xs ih =>
    obtain ⟨v, hv⟩ := e x (by simp)
    obtain ⟨vs, hvs⟩ := ih fun y hy => e y (by simp [hy])
    exact ⟨v :: vs, by simp only [List.mapM_cons, hv, hvs, bind, Except.bind, pure, Except.pure]⟩

theorem run_vacuous {D : Type} (R : Resampler D G) (u w : D) (v : Except Exc ℝ) {r : StatRes}
    (h : runMITest E W nT mth g R [u, w] (fun _ _ => v) = .ok r) : Vacuous r := by
  rw [run_mi_eq] at h
  obtain ⟨t, -, h⟩ := chk_bind h
  split_ifs at h
  obtain ⟨vs, hvs, h⟩ := chk_bind h
  obtain ⟨obs, hob, h⟩ := chk_bind h
  refine vacuous_of h fun t ht => ?_
  obtain ⟨d, -, hd⟩ := mapM_mem hvs t ht
  rw [hob] at hd
  cases hd; rfl

/-! ## Mutual information -/

/-- **C87** The test of a mutual information (every approach except `ordinal`, two arrays, any offset): both variables are cut to the samples that
have a partner at the offset; in every round the generator draws rows (a permutation of them, or as many with replacement), and the test value is the
mutual information — by the same function call, offset 0 — of the drawn samples of the first variable with the untouched second variable.  The
observed value is that of the data given. -/
theorem C87_mi {x y : PyData} (hk : Asks W.lower meas [x, y] none .mi) (hn : Names W.lower .mi a f) (hf : f ≠ .ordinal)
    (hnorm : kwOr kw "normalize" (.bool false) = .bool false) {r : StatRes}
    (h : imTest E W nT mth g [x, y] none (.str meas) a kw = some (.ok r)) :
    ∃ o, kwOr kw "offset" (.int 0) = .int o ∧ x.size = y.size ∧
      testArgs E.cfg nT mth = .ok (r.nTests, r.method) ∧ KnownMethod r.method ∧ Summary r ∧
      List.Forall₂ (fun d v =>
          imEstimator (W.withDraw (E.normal d.2)) [x.pick (among (keptX x.size o) d.1), y.pick (keptY y.size o)] a (noOffset kw) none (.str meas) = .ok v)
        (rounds E r.method (keptX x.size o).length r.nTests.toNat g) r.testValues ∧
      imEstimator (W.withDraw (E.normal (afterRounds E r.method (keptX x.size o).length r.nTests.toNat g))) [x, y] a kw none (.str meas) =
        .ok r.observed := by
  rcases mi_test_eq (E := E) (nT := nT) (mth := mth) (g := g) hk hn hf hnorm with ⟨e, -, h2⟩ | h2 | ⟨o, ho, hs, h2⟩
  · rw [h2] at h; cases h
  · rw [h2] at h; cases h
  · rw [h2] at h
    obtain ⟨t, ht, h⟩ := chk_bind (Option.some.inj h)
    split_ifs at h with hm
    obtain ⟨vs, hvs, h⟩ := chk_bind h
    obtain ⟨obs, hob, h⟩ := chk_bind h
    obtain ⟨n, m⟩ := t
    have hl : vs.length = n.toNat := by rw [mapM_length hvs, dRounds_len]
    obtain ⟨hc, rfl, rfl, rfl, rfl⟩ := consistent_of (testArgs_pos ht) hl h
    exact ⟨o, ho, hs, ht, hm, hc, mapM_forall2.1 hvs, hob⟩

/-- **C87** The converse: a test with a valid number of tests (at least 2) and a known method succeeds as soon as the measure is defined for the data
given and for every resampled data set. -/
theorem C87_mi_succeeds {x y : PyData} (hk : Asks W.lower meas [x, y] none .mi) (hn : Names W.lower .mi a f) (hf : f ≠ .ordinal)
    (hnorm : kwOr kw "normalize" (.bool false) = .bool false) {o n : Int} {m : String} (ho : kwOr kw "offset" (.int 0) = .int o)
    (hmod : imTest E W nT mth g [x, y] none (.str meas) a kw ≠ none)
    (ht : testArgs E.cfg nT mth = .ok (n, m)) (h2 : 2 ≤ n) (hm : KnownMethod m)
    (hobs : ∀ d, ∃ v, imEstimator (W.withDraw d) [x, y] a kw none (.str meas) = .ok v)
    (hres : ∀ d rows, rows.length = (keptX x.size o).length → (∀ i ∈ rows, i ∈ keptX x.size o) →
      ∃ v, imEstimator (W.withDraw d) [x.pick rows, y.pick (keptY y.size o)] a (noOffset kw) none (.str meas) = .ok v) :
    ∃ r, imTest E W nT mth g [x, y] none (.str meas) a kw = some (.ok r) := by
  rcases mi_test_eq (E := E) (nT := nT) (mth := mth) (g := g) hk hn hf hnorm with ⟨e, h1, -⟩ | h1 | ⟨o', ho', hs, h1⟩
  · obtain ⟨v, hv⟩ := hobs (fun _ _ _ => 0)
    rw [h1] at hv; cases hv
  · exact absurd h1 hmod
  · rw [ho] at ho'
    cases ho'
    rw [h1]
    have hvs : ∃ vs, (rounds E m (keptX x.size o).length n.toNat g).mapM (fun d =>
        imEstimator (W.withDraw (E.normal d.2)) [x.pick (among (keptX x.size o) d.1), y.pick (keptY y.size o)] a (noOffset kw) none (.str meas)) =
        .ok vs := by
      refine mapM_ok_of fun d hd => hres _ _ ?_ ?_
      · rw [among, List.length_map, (mem_rounds hd).2]
      · intro i hi
        obtain ⟨j, hj, rfl⟩ := List.mem_map.1 hi
        have := (mem_rounds hd).1 j hj
        rw [List.getD_eq_getElem?_getD, List.getElem?_eq_getElem this]
        exact List.getElem_mem _
    obtain ⟨vs, hvs⟩ := hvs
    obtain ⟨obs, hob⟩ := hobs (E.normal (afterRounds E m (keptX x.size o).length n.toNat g))
    have hl : vs.length = n.toNat := by rw [mapM_length hvs, dRounds_len]
    obtain ⟨r, hr⟩ := (C42_needs_two_values obs vs n m).2 (by omega)
    exact ⟨r, by simp only [ht, bind, Except.bind, if_pos hm, hvs, hob, hr]⟩

/-! ## Conditional mutual information -/

/-- **C87** The test of a conditional mutual information: only the rows of the first variable are drawn; the second variable and the condition stay as
they are. -/
theorem C87_cmi {x y z : PyData} (hk : Asks W.lower meas [x, y] (some z) .cmi) (hn : Names W.lower .cmi a f) (hf : f ≠ .ordinal)
    (hnorm : kwOr kw "normalize" (.bool false) = .bool false) {r : StatRes}
    (h : imTest E W nT mth g [x, y] (some z) (.str meas) a kw = some (.ok r)) :
    testArgs E.cfg nT mth = .ok (r.nTests, r.method) ∧ KnownMethod r.method ∧ Summary r ∧
    List.Forall₂ (fun d v => imEstimator (W.withDraw (E.normal d.2)) [x.pick d.1, y] a kw (some z) (.str meas) = .ok v)
      (rounds E r.method x.size r.nTests.toNat g) r.testValues ∧
    imEstimator (W.withDraw (E.normal (afterRounds E r.method x.size r.nTests.toNat g))) [x, y] a kw (some z) (.str meas) = .ok r.observed := by
  rcases cmi_test_eq (E := E) (nT := nT) (mth := mth) (g := g) hk hn hf hnorm with ⟨e, -, h2⟩ | h2 | h2
  · rw [h2] at h; cases h
  · rw [h2] at h; cases h
  · rw [h2] at h
    obtain ⟨t, ht, h⟩ := chk_bind (Option.some.inj h)
    split_ifs at h with hm
    obtain ⟨vs, hvs, h⟩ := chk_bind h
    obtain ⟨obs, hob, h⟩ := chk_bind h
    obtain ⟨n, m⟩ := t
    have hl : vs.length = n.toNat := by rw [mapM_length hvs, dRounds_len]
    obtain ⟨hc, rfl, rfl, rfl, rfl⟩ := consistent_of (testArgs_pos ht) hl h
    exact ⟨ht, hm, hc, mapM_forall2.1 hvs, hob⟩

/-- **C87** The converse for conditional mutual information. -/
theorem C87_cmi_succeeds {x y z : PyData} (hk : Asks W.lower meas [x, y] (some z) .cmi) (hn : Names W.lower .cmi a f) (hf : f ≠ .ordinal)
    (hnorm : kwOr kw "normalize" (.bool false) = .bool false) {n : Int} {m : String}
    (hmod : imTest E W nT mth g [x, y] (some z) (.str meas) a kw ≠ none)
    (ht : testArgs E.cfg nT mth = .ok (n, m)) (h2 : 2 ≤ n) (hm : KnownMethod m)
    (hobs : ∀ d, ∃ v, imEstimator (W.withDraw d) [x, y] a kw (some z) (.str meas) = .ok v)
    (hres : ∀ d rows, rows.length = x.size → (∀ i ∈ rows, i < x.size) →
      ∃ v, imEstimator (W.withDraw d) [x.pick rows, y] a kw (some z) (.str meas) = .ok v) :
    ∃ r, imTest E W nT mth g [x, y] (some z) (.str meas) a kw = some (.ok r) := by
  rcases cmi_test_eq (E := E) (nT := nT) (mth := mth) (g := g) hk hn hf hnorm with ⟨e, h1, -⟩ | h1 | h1
  · obtain ⟨v, hv⟩ := hobs (fun _ _ _ => 0)
    rw [h1] at hv; cases hv
  · exact absurd h1 hmod
  · rw [h1]
    obtain ⟨vs, hvs⟩ : ∃ vs, (rounds E m x.size n.toNat g).mapM (fun d =>
        imEstimator (W.withDraw (E.normal d.2)) [x.pick d.1, y] a kw (some z) (.str meas)) = .ok vs :=
      mapM_ok_of fun d hd => hres _ _ (mem_rounds hd).2 (mem_rounds hd).1
    obtain ⟨obs, hob⟩ := hobs (E.normal (afterRounds E m x.size n.toNat g))
    have hl : vs.length = n.toNat := by rw [mapM_length hvs, dRounds_len]
    obtain ⟨r, hr⟩ := (C42_needs_two_values obs vs n m).2 (by omega)
    exact ⟨r, by simp only [ht, bind, Except.bind, if_pos hm, hvs, hob, hr]⟩

/-- **C87** What is drawn: in every round of a permutation test the rows are all rows in some order; in every round of a bootstrap they are as many
rows, drawn with replacement. -/
theorem C87_drawn (mm : String) (N n : Nat) (d : List Nat × G) (h : d ∈ rounds E mm N n g) :
    d.1.length = N ∧ (∀ i ∈ d.1, i < N) ∧ (mm = "permutation_test" → d.1.Perm (List.range N)) := by
  refine ⟨(mem_rounds h).2, (mem_rounds h).1, fun hm => ?_⟩
  induction n generalizing g with
  | zero => cases h
  | succ n ih =>
    rcases List.mem_cons.1 h with rfl | h
    · simp only [drawn, hm, if_true]; exact E.rng.perm_spec N g
    · exact ih h

/-! ## Ordinal approach -/

/-- **C87** Finding: the tests of the *ordinal* mutual information and conditional mutual information are vacuous.  The patterns are computed by the
constructor and the resampled data are never looked at: every test value is the observed value, and the p-value is 0. -/
theorem C87_ordinal {x y : PyData} (hk : Asks W.lower meas [x, y] c k) (hkk : k = .mi ∨ k = .cmi) (hn : Names W.lower k a .ordinal) {r : StatRes}
    (h : imTest E W nT mth g [x, y] c (.str meas) a kw = some (.ok r)) :
    Vacuous r ∧ ∀ d, imEstimator (W.withDraw d) [x, y] a kw c (.str meas) = .ok r.observed := by
  rcases test_eval (E := E) (nT := nT) (mth := mth) (g := g) (kw := kw) hk hn with ⟨e, h1, h2⟩ | ⟨p, hp, h1, h2⟩
  · rw [h2] at h; cases h
  rw [h2] at h
  rcases hkk with rfl | rfl
  · have hT : Est.test E W nT mth g ⟨⟨.mi, .ordinal⟩, [x, y], c, p⟩ =
        (Est.miObj W ⟨⟨.mi, .ordinal⟩, [x, y], c, p⟩).map (fun r => r >>= MIObj.test E W nT mth g) := rfl
    rw [hT] at h
    obtain ⟨ob, hob, h⟩ := Option.map_eq_some_iff.1 h
    obtain ⟨ob, rfl, h⟩ := chk_bind h
    obtain ⟨u, w, v, rfl⟩ := ord_miObj hob
    have hv := run_const (E := E) (W := W) (nT := nT) (mth := mth) (g := g) E.rng.resampler u w v h
    refine ⟨run_vacuous (E := E) (W := W) (nT := nT) (mth := mth) (g := g) E.rng.resampler u w v h, fun d => ?_⟩
    rw [h1 d, result_mi rfl ((miObj_draw W _ d).trans hob)]
    exact hv.1
  · have hT : Est.test E W nT mth g ⟨⟨.cmi, .ordinal⟩, [x, y], c, p⟩ =
        (Est.cmiObj W ⟨⟨.cmi, .ordinal⟩, [x, y], c, p⟩).map (fun r => r >>= MIObj.test E W nT mth g) := rfl
    rw [hT] at h
    obtain ⟨ob, hob, h⟩ := Option.map_eq_some_iff.1 h
    obtain ⟨ob, rfl, h⟩ := chk_bind h
    obtain ⟨u, w, v, rfl⟩ := ord_cmiObj hob
    have hv := run_const (E := E) (W := W) (nT := nT) (mth := mth) (g := g) E.rng.resampler u w v h
    refine ⟨run_vacuous (E := E) (W := W) (nT := nT) (mth := mth) (g := g) E.rng.resampler u w v h, fun d => ?_⟩
    rw [h1 d, result_cmi rfl ((cmiObj_draw W _ d).trans hob)]
    exact hv.1

/-- **C87** Such a test succeeds whenever the value exists. -/
theorem C87_ordinal_succeeds {x y : PyData} (hk : Asks W.lower meas [x, y] c k) (hkk : k = .mi ∨ k = .cmi) (hn : Names W.lower k a .ordinal)
    {n : Int} {m : String} (hmod : imTest E W nT mth g [x, y] c (.str meas) a kw ≠ none)
    (ht : testArgs E.cfg nT mth = .ok (n, m)) (h2 : 2 ≤ n) (hm : KnownMethod m) {d : Nat → Nat → Nat → ℝ} {v : ℝ}
    (hobs : imEstimator (W.withDraw d) [x, y] a kw c (.str meas) = .ok v) :
    ∃ r, imTest E W nT mth g [x, y] c (.str meas) a kw = some (.ok r) := by
  have run : ∀ (u w : List ℝ), ∃ r, runMITest E W nT mth g E.rng.resampler [u, w] (fun _ _ => (.ok v : Except Exc ℝ)) = .ok r := by
    intro u w
    obtain ⟨vs, hvs⟩ : ∃ vs, (dRounds (E.rng.resampler.ofMethod m) E.next u n.toNat g).mapM (fun _ => (.ok v : Except Exc ℝ)) = .ok vs :=
      mapM_ok_of fun _ _ => ⟨v, rfl⟩
    have hl : vs.length = n.toNat := by
      rw [mapM_length hvs]
      have := (dRounds_rounds (E := E) (resampler_drawn m u) n.toNat g).1
      rw [this, List.length_map, dRounds_len]
    obtain ⟨r, hr⟩ := (C42_needs_two_values v vs n m).2 (by omega)
    exact ⟨r, by rw [run_mi_eq]; simp only [ht, bind, Except.bind, if_pos hm, hvs, hr]⟩
  rcases test_eval (E := E) (nT := nT) (mth := mth) (g := g) (kw := kw) hk hn with ⟨e, h1, -⟩ | ⟨p, hp, h1, h3⟩
  · rw [h1] at hobs; cases hobs
  rw [h3] at hmod ⊢
  rw [h1] at hobs
  rcases hkk with rfl | rfl
  · have hT : Est.test E W nT mth g ⟨⟨.mi, .ordinal⟩, [x, y], c, p⟩ =
        (Est.miObj W ⟨⟨.mi, .ordinal⟩, [x, y], c, p⟩).map (fun r => r >>= MIObj.test E W nT mth g) := rfl
    rw [hT] at hmod ⊢
    cases hob : Est.miObj W ⟨⟨.mi, .ordinal⟩, [x, y], c, p⟩ with
    | none => rw [hob] at hmod; exact absurd rfl hmod
    | some o =>
      rw [result_mi rfl ((miObj_draw W _ d).trans hob)] at hobs
      obtain ⟨ob, rfl, hobs⟩ := chk_bind hobs
      obtain ⟨u, w, v', rfl⟩ := ord_miObj hob
      have hv' : v' = .ok v := hobs
      subst hv'
      obtain ⟨r, hr⟩ := run u w
      exact ⟨r, congrArg some hr⟩
  · have hT : Est.test E W nT mth g ⟨⟨.cmi, .ordinal⟩, [x, y], c, p⟩ =
        (Est.cmiObj W ⟨⟨.cmi, .ordinal⟩, [x, y], c, p⟩).map (fun r => r >>= MIObj.test E W nT mth g) := rfl
    rw [hT] at hmod ⊢
    cases hob : Est.cmiObj W ⟨⟨.cmi, .ordinal⟩, [x, y], c, p⟩ with
    | none => rw [hob] at hmod; exact absurd rfl hmod
    | some o =>
      rw [result_cmi rfl ((cmiObj_draw W _ d).trans hob)] at hobs
      obtain ⟨ob, rfl, hobs⟩ := chk_bind hobs
      obtain ⟨u, w, v', rfl⟩ := ord_cmiObj hob
      have hv' : v' = .ok v := hobs
      subst hv'
      obtain ⟨r, hr⟩ := run u w
      exact ⟨r, congrArg some hr⟩

/-! ## Transfer entropy -/

/-- **C87** The test of a transfer entropy, for every approach: the measure of any two series is a function `Φ` of the tables of source histories,
destination histories and futures cut from them; a test value is `Φ` of the same tables with drawn rows of the source history, everything else
untouched; the observed value is that of the data given. -/
theorem C87_te {x y : PyData} (hk : Asks W.lower meas [x, y] none .te) (hn : Names W.lower .te a f) {r : StatRes}
    (h : imTest E W nT mth g [x, y] none (.str meas) a kw = some (.ok r)) :
    testArgs E.cfg nT mth = .ok (r.nTests, r.method) ∧ KnownMethod r.method ∧ Summary r ∧
    ∃ (β α : Type) (conv : PyData → Option (List β)) (prep : (Nat → Nat → Nat → ℝ) → Nat → Nat → List β → Except Exc (List α))
      (Φ : TESlices α → Except Exc ℝ) (u o : Option PyArg) (l m s : PyArg) (xs ys : List β),
      (kwOr kw "prop_time" (.int 0)).toOptArg = some u ∧ (kwOr kw "offset" .none).toOptArg = some o ∧
      (kwOr kw "src_hist_len" (.int 1)).toArg = some l ∧ (kwOr kw "dest_hist_len" (.int 1)).toArg = some m ∧
      (kwOr kw "step_size" (.int 1)).toArg = some s ∧
      conv x = some xs ∧ conv y = some ys ∧
      (∀ d x' y' xs' ys', conv x' = some xs' → conv y' = some ys' → imEstimator (W.withDraw d) [x', y'] a kw none (.str meas) =
        viaTables (prep d) Φ u o l m s xs' ys' List.range) ∧
      List.Forall₂ (fun g' v => viaTables (prep (E.normal g')) Φ u o l m s xs ys (fun n => (drawn E r.method n g').1) = .ok v)
        (states E r.nTests.toNat g) r.testValues ∧
      imEstimator (W.withDraw (E.normal (E.next^[r.nTests.toNat] g))) [x, y] a kw none (.str meas) = .ok r.observed := by
  rcases te_test_eq (E := E) (nT := nT) (mth := mth) (g := g) (kw := kw) hk hn with
    ⟨e, -, h2⟩ | h2 | ⟨β, α, conv, prep, Φ, p, u, o, q, xs, ys, hp, hu, ho, hl, hm, hs, hx, hy, pin, h2⟩
  · rw [h2] at h; cases h
  · rw [h2] at h; cases h
  · rw [h2] at h
    obtain ⟨t, ht, h⟩ := chk_bind (Option.some.inj h)
    obtain ⟨n, mm⟩ := t
    simp only at h
    have hkm : KnownMethod mm := by
      unfold methodFlags at h
      unfold KnownMethod
      split_ifs at h with e1 e2
      · exact .inl e1
      · exact .inr e2
    cases hfl : methodFlags mm with
    | none => rw [hfl] at h; cases h
    | some fl =>
      rw [hfl] at h
      obtain ⟨vs, hvs, h⟩ := chk_bind h
      obtain ⟨obs, hob, h⟩ := chk_bind h
      have hlen : vs.length = n.toNat := by rw [mapM_length hvs, states_len]
      obtain ⟨hc, rfl, rfl, rfl, rfl⟩ := consistent_of (testArgs_pos ht) hlen h
      have key : ∀ kk dd, (kk, dd) ∈ commonKw W.b0 .te → (kk = "offset" ∨ teDefault PyVal.int kk = some dd ∧ kk ≠ "cond_hist_len") → p kk = some (kwOr kw kk dd) := by
        intro kk dd hmem hor
        have := (C81_values W.b0 _ p hp).2 (kk, dd) (by unfold optionalKw; simp only [List.mem_append]; exact .inr hmem)
        rw [this]
        simp only [factoryKw, factoryTeKw]
        rcases hor with rfl | ⟨hd, hne⟩
        · simp [teKw, restKw, namedParams, kwOr]
        · have : kk ∈ ["prop_time", "src_hist_len", "dest_hist_len", "step_size"] := by
            unfold teDefault at hd
            split_ifs at hd with e1 e2
            · simp [e1]
            · rcases e2 with e | e | e | e <;> simp [e] at hne ⊢
          simp only [teKw, if_pos this, hd, kwOr]
          cases kw kk <;> rfl
      rw [key "prop_time" (.int 0) (by simp [commonKw]) (.inr ⟨by simp [teDefault], by decide⟩)] at hu
      rw [key "offset" .none (by simp [commonKw]) (.inl rfl)] at ho
      rw [key "src_hist_len" (.int 1) (by simp [commonKw]) (.inr ⟨by simp [teDefault], by decide⟩)] at hl
      rw [key "dest_hist_len" (.int 1) (by simp [commonKw]) (.inr ⟨by simp [teDefault], by decide⟩)] at hm
      rw [key "step_size" (.int 1) (by simp [commonKw]) (.inr ⟨by simp [teDefault], by decide⟩)] at hs
      exact ⟨ht, hkm, hc, β, α, conv, prep, Φ, u, o, q.srcHist, q.destHist, q.step, xs, ys, hu, ho, hl, hm, hs, hx, hy, pin, mapM_forall2.1 hvs, hob⟩

/-! ## Conditional transfer entropy -/

/-- **C87** Finding: a conditional transfer entropy is never randomised by its test.  Every test value is the conditional transfer entropy of the data
given (with other noise, if the approach adds noise). -/
theorem C87_cte {z : PyData} (hk : Asks W.lower meas data (some z) .cte) (hn : Names W.lower .cte a f) {r : StatRes}
    (h : imTest E W nT mth g data (some z) (.str meas) a kw = some (.ok r)) :
    testArgs E.cfg nT mth = .ok (r.nTests, r.method) ∧ KnownMethod r.method ∧ Summary r ∧
    List.Forall₂ (fun g' v => imEstimator (W.withDraw (E.normal g')) data a kw (some z) (.str meas) = .ok v) (states E r.nTests.toNat g) r.testValues ∧
    imEstimator (W.withDraw (E.normal (E.next^[r.nTests.toNat] g))) data a kw (some z) (.str meas) = .ok r.observed ∧
    ((∀ d d', imEstimator (W.withDraw d) data a kw (some z) (.str meas) = imEstimator (W.withDraw d') data a kw (some z) (.str meas)) → Vacuous r) := by
  rcases cte_test_eq (E := E) (nT := nT) (mth := mth) (g := g) (kw := kw) hk hn with ⟨e, -, h2⟩ | h2 | h2
  · rw [h2] at h; cases h
  · rw [h2] at h; cases h
  · rw [h2] at h
    obtain ⟨t, ht, h⟩ := chk_bind (Option.some.inj h)
    obtain ⟨n, mm⟩ := t
    simp only at h
    have hkm : KnownMethod mm := by
      unfold methodFlags at h
      unfold KnownMethod
      split_ifs at h with e1 e2
      · exact .inl e1
      · exact .inr e2
    cases hfl : methodFlags mm with
    | none => rw [hfl] at h; cases h
    | some fl =>
      rw [hfl] at h
      obtain ⟨vs, hvs, h⟩ := chk_bind h
      obtain ⟨obs, hob, h⟩ := chk_bind h
      have hlen : vs.length = n.toNat := by rw [mapM_length hvs, states_len]
      have hvac : (∀ d d', imEstimator (W.withDraw d) data a kw (some z) (.str meas) = imEstimator (W.withDraw d') data a kw (some z) (.str meas)) → Vacuous r := by
        intro hd
        refine vacuous_of h fun v hv => ?_
        obtain ⟨g', -, hg⟩ := mapM_mem hvs v hv
        rw [hd _ (E.normal (E.next^[n.toNat] g)), hob] at hg
        cases hg; rfl
      obtain ⟨hc, rfl, rfl, rfl, rfl⟩ := consistent_of (testArgs_pos ht) hlen h
      exact ⟨ht, hkm, hc, mapM_forall2.1 hvs, hob, hvac⟩

/-- **C87** The converse for conditional transfer entropy. -/
theorem C87_cte_succeeds {z : PyData} (hk : Asks W.lower meas data (some z) .cte) (hn : Names W.lower .cte a f) {n : Int} {m : String}
    (hmod : imTest E W nT mth g data (some z) (.str meas) a kw ≠ none)
    (ht : testArgs E.cfg nT mth = .ok (n, m)) (h2 : 2 ≤ n) (hm : KnownMethod m)
    (hobs : ∀ d, ∃ v, imEstimator (W.withDraw d) data a kw (some z) (.str meas) = .ok v) :
    ∃ r, imTest E W nT mth g data (some z) (.str meas) a kw = some (.ok r) := by
  rcases cte_test_eq (E := E) (nT := nT) (mth := mth) (g := g) (kw := kw) hk hn with ⟨e, h1, -⟩ | h1 | h1
  · obtain ⟨v, hv⟩ := hobs (fun _ _ _ => 0)
    rw [h1] at hv; cases hv
  · exact absurd h1 hmod
  · rw [h1]
    obtain ⟨vs, hvs⟩ : ∃ vs, (states E n.toNat g).mapM (fun g' => imEstimator (W.withDraw (E.normal g')) data a kw (some z) (.str meas)) = .ok vs :=
      mapM_ok_of fun d _ => hobs _
    obtain ⟨obs, hob⟩ := hobs (E.normal (E.next^[n.toNat] g))
    have hl : vs.length = n.toNat := by rw [mapM_length hvs, states_len]
    obtain ⟨r, hr⟩ := (C42_needs_two_values obs vs n m).2 (by omega)
    obtain ⟨fl, hfl⟩ : ∃ fl, methodFlags m = some fl := by
      rcases hm with rfl | rfl <;> exact ⟨_, rfl⟩
    exact ⟨r, by simp only [ht, bind, Except.bind, hfl, hvs, hob, hr]⟩

/-! ## Entropies, bad arguments -/

/-- **C87** Arguments of `statistical_test`: with an estimator whose value is defined, an invalid `n_tests` or a setting of the wrong type raises
what the argument check raises, and an unknown method raises a ValueError — for every measure and approach. -/
theorem C87_rejects {x y : PyData} (hk : Asks W.lower meas [x, y] c k) (hkk : k ≠ .h) (hn : Names W.lower k a f)
    (hf : k = .mi ∨ k = .cmi → f ≠ .ordinal ∧ kwOr kw "normalize" (.bool false) = .bool false)
    {d : Nat → Nat → Nat → ℝ} {v : ℝ} (hv : imEstimator (W.withDraw d) [x, y] a kw c (.str meas) = .ok v)
    (hmod : imTest E W nT mth g [x, y] c (.str meas) a kw ≠ none) :
    (∀ e, testArgs E.cfg nT mth = .error e → imTest E W nT mth g [x, y] c (.str meas) a kw = some (.error e)) ∧
    (∀ t, testArgs E.cfg nT mth = .ok t → ¬ KnownMethod t.2 → imTest E W nT mth g [x, y] c (.str meas) a kw = some (.error .valueError)) := by
  have hfl : ∀ m, ¬ KnownMethod m → methodFlags m = none := by
    intro m hm
    unfold KnownMethod at hm
    unfold methodFlags
    push Not at hm
    rw [if_neg hm.1, if_neg hm.2]
  cases k with
  | h => exact absurd rfl hkk
  | mi =>
    obtain ⟨-, rfl, -⟩ := id hk
    rcases mi_test_eq (E := E) (nT := nT) (mth := mth) (g := g) hk hn (hf (.inl rfl)).1 (hf (.inl rfl)).2 with ⟨e, h1, -⟩ | h1 | ⟨o, -, -, h1⟩
    · rw [h1] at hv; cases hv
    · exact absurd h1 hmod
    · rw [h1]
      exact ⟨fun e he => by rw [he]; rfl, fun t ht hm => by rw [ht]; simp only [bind, Except.bind, if_neg hm]⟩
  | cmi =>
    obtain ⟨z, rfl⟩ := Option.isSome_iff_exists.1 hk.2.1
    rcases cmi_test_eq (E := E) (nT := nT) (mth := mth) (g := g) hk hn (hf (.inr rfl)).1 (hf (.inr rfl)).2 with ⟨e, h1, -⟩ | h1 | h1
    · rw [h1] at hv; cases hv
    · exact absurd h1 hmod
    · rw [h1]
      exact ⟨fun e he => by rw [he]; rfl, fun t ht hm => by rw [ht]; simp only [bind, Except.bind, if_neg hm]⟩
  | te =>
    obtain ⟨-, rfl, -⟩ := id hk
    rcases te_test_eq (E := E) (nT := nT) (mth := mth) (g := g) (kw := kw) hk hn with
      ⟨e, h1, -⟩ | h1 | ⟨β, α, conv, prep, Φ, p, u, o, q, xs, ys, -, -, -, -, -, -, -, -, -, h1⟩
    · rw [h1] at hv; cases hv
    · exact absurd h1 hmod
    · rw [h1]
      exact ⟨fun e he => by rw [he]; rfl, fun t ht hm => by rw [ht]; simp only [bind, Except.bind, hfl _ hm]⟩
  | cte =>
    obtain ⟨z, rfl⟩ := Option.isSome_iff_exists.1 hk.2.1
    rcases cte_test_eq (E := E) (nT := nT) (mth := mth) (g := g) (kw := kw) hk hn with ⟨e, h1, -⟩ | h1 | h1
    · rw [h1] at hv; cases hv
    · exact absurd h1 hmod
    · rw [h1]
      exact ⟨fun e he => by rw [he]; rfl, fun t ht hm => by rw [ht]; simp only [bind, Except.bind, hfl _ hm]⟩

/-- **C87** Entropies have no statistical test: an AttributeError. -/
theorem C87_entropy (hk : Asks W.lower meas data c .h) (hn : Names W.lower .h a f) (d : Nat → Nat → Nat → ℝ) {v : ℝ}
    (hv : imEstimator (W.withDraw d) data a kw c (.str meas) = .ok v) :
    imTest E W nT mth g data c (.str meas) a kw = some (.error .attributeError) := by
  rcases test_eval (E := E) (nT := nT) (mth := mth) (g := g) (kw := kw) hk hn with ⟨e, h1, h2⟩ | ⟨p, hp, h1, h2⟩
  · rw [h1] at hv; cases hv
  · rw [h2]; rfl

end

end Verif
