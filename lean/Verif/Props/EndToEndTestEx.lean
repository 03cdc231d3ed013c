import Verif.Props.EndToEndTest2
import Verif.Props.EndToEndLocalEx
import Verif.Props.StatTest4

/-!
# C87: concrete tests that meet the hypotheses
-/

set_option linter.unusedSimpArgs false

namespace Verif

open Spec

section
variable {G : Type} (E : TestEnv G) (g : G)

theorem imTest_built {W : World} {nT : Option PyArg} {mth : Option String} {m : String} {data : List PyData} {c : Option PyData} {k : Kind} {f : Fam}
    {a : PyName} {kw : Kw} {b : Base} (hk : Asks W.lower m data c k) (h : Call W k f a kw b) (hkept : Kept kw k) (hr : ∀ r ∈ requiredKw k f, kw r ≠ none) :
    ∃ p, imTest E W nT mth g data c (.str m) a kw = Est.test E W nT mth g ⟨⟨k, f⟩, data, c, p⟩ ∧ (∀ r ∈ requiredKw k f, p r = kw r) ∧
      ∀ o ∈ optionalKw W.b0 ⟨k, f⟩, p o.1 = some (kwOr kw o.1 o.2) := by
  have hcall := asks_call (kw := kw) hk h.name
  obtain ⟨p, hp, h1, h2⟩ := local_ctor hk h hkept hr
  refine ⟨p, ?_, h1, h2⟩
  unfold imTest; simp only [hcall, hp]

theorem demo_args (n : Int) (hn : 0 < n) (m : String) : testArgs E.cfg (some (.int n)) (some m) = .ok (n, m) := by
  simp [testArgs, nTestsArg, methodArg, PyArg.posInt, PyArg.val, hn, bind, Except.bind, pure, Except.pure]

/-- the values of the discrete mutual information exist -/
theorem demo_mi_value (d : Nat → Nat → Nat → ℝ) (kw : Kw) (h : Call demo .mi .discrete (.str "discrete") kw .e) (hnn : NoNamed kw)
    (ho : kwOr kw "offset" (.int 0) = .int 0) (xs ys : List Int) (h1 : xs.length = ys.length)
    (h2 : xs ≠ []) (h3 : xs.length < 100) :
    ∃ v, imEstimator (demo.withDraw d) [.ints xs, .ints ys] (.str "discrete") kw none (.str "mutual information") = .ok v := by
  have h' : Call (demo.withDraw d) .mi .discrete (.str "discrete") kw .e := ⟨h.name, h.accepted, h.base⟩
  have hv := C82_mi_two (cond := .absent) h' trivial rfl ho xs ys h1 h2 (by omega)
  have hfac := C82_factory_mi (W := demo.withDraw d) [.ints xs, .ints ys] none (.str "discrete") kw "mutual information" hnn
    (show measureComp demo.lower "mutual information" ∈ measureNames Kind.mi by decide +kernel) (by simp)
  exact ⟨_, hfac.trans hv⟩

theorem demo_mi_test : ∃ r, imTest E demo (some (.int 10)) (some "permutation_test") g [.ints [1, 1, 2], .ints [0, 3, 0]] none (.str "mutual information")
    (.str "discrete") (kwList []) = some (.ok r) := by
  have hcall : Call demo .mi .discrete (.str "discrete") (kwList []) .e := call "discrete", []
  refine C87_mi_succeeds (demoAsks_mi _ _) hcall.name (by simp) rfl (o := 0) rfl ?_ (demo_args E 10 (by norm_num) _) (by norm_num) (.inl rfl)
    (fun d => demo_mi_value d _ hcall (demoNoNamed [] (by simp)) rfl _ _ rfl (by simp) (by norm_num)) (fun d rows hl hr => ?_)
  · obtain ⟨p, e1, hr, ho⟩ := imTest_built E g (nT := some (.int 10)) (mth := some "permutation_test") (demoAsks_mi (.ints [1, 1, 2]) (.ints [0, 3, 0])) hcall
      (demoNoNamed [] (by simp)) (by simp [requiredKw])
    have hx : [PyData.ints [1, 1, 2], .ints [0, 3, 0]].mapM PyData.toInts = some [[1, 1, 2], [0, 3, 0]] := rfl
    have g1 := getOpt (data := [.ints [1, 1, 2], .ints [0, 3, 0]]) (c := none) ho (n := "base") (d := demo.b0) (by opt) hcall.base
    have g2 := getOpt (data := [.ints [1, 1, 2], .ints [0, 3, 0]]) (c := none) ho (n := "offset") (d := .int 0) (g := PyVal.toOptInt) (v := some 0) (by opt) rfl
    rw [e1]
    simp [Est.test, Est.miObj, g1, g2, hx]
  · have hkw : noOffset (kwList []) = kwList [("offset", .int 0)] := by
      funext j
      by_cases hj : j = "offset" <;> simp [noOffset, kwList, List.lookup, hj]
      split <;> simp_all
    rw [hkw]
    have hl' : rows.length = 3 := by simpa [keptX, PyData.size] using hl
    have hx : (PyData.ints [1, 1, 2]).pick rows = .ints (rows.map (fun i => [1, 1, 2].getD i 0)) := rfl
    have hy : (PyData.ints [0, 3, 0]).pick (keptY (PyData.ints [0, 3, 0]).size 0) = .ints [0, 3, 0] := rfl
    rw [hx, hy]
    exact demo_mi_value d _ (call "discrete", [("offset", .int 0)]) (demoNoNamed _ (by decide +kernel)) (by kw) _ _ (by simp [hl'])
      (by intro h; simp at h; simp [h] at hl') (by simp [hl'])

example := (demo_mi_test E g).imp fun r hr => C87_mi (demoAsks_mi _ _) ⟨"discrete", rfl, by decide +kernel⟩ (f := .discrete) (by simp) rfl hr
example := fun h => C87_rejects (E := E) (g := g) (nT := some (.int 0)) (mth := some "bootstrap") (demoAsks_mi _ _) (by simp) (f := .discrete)
  ⟨"discrete", rfl, by decide +kernel⟩ (fun _ => ⟨by simp, rfl⟩)
  (demo_mi_value (fun _ _ _ => 0) _ (call "discrete", []) (demoNoNamed [] (by simp)) rfl [1, 1, 2] [0, 3, 0] rfl (by simp) (by norm_num)).choose_spec h

/-- conditional mutual information -/
theorem demo_cmi_value (d : Nat → Nat → Nat → ℝ) (xs ys zs : List Int) (h1 : xs.length = 3) (h2 : ys.length = 3) (h3 : zs.length = 3) :
    ∃ v, imEstimator (demo.withDraw d) [.ints xs, .ints ys] (.str "discrete") (kwList []) (some (.ints zs)) (.str "CMI") = .ok v := by
  have hcall : Call demo .cmi .discrete (.str "discrete") (kwList []) .e := call "discrete", []
  have h' : Call (demo.withDraw d) .cmi .discrete (.str "discrete") (kwList []) .e := ⟨hcall.name, hcall.accepted, hcall.base⟩
  obtain ⟨v, ls, e, -⟩ := C84_cmi_mean (W := demo.withDraw d) (b := .e) [xs, ys] zs (demoAsks_cmi _ _ _) (f := .discrete) h' (.inl rfl)
    (demoNoNamed [] (by simp)) (by kw) (by omega) (by simp [h1, h2, h3]) (by simp [h3]) trivial
  exact ⟨v, e⟩

theorem demo_cmi_test : ∃ r, imTest E demo (some (.int 10)) (some "bootstrap") g [.ints [1, 1, 2], .ints [0, 3, 0]] (some (.ints [1, 0, 1])) (.str "CMI")
    (.str "discrete") (kwList []) = some (.ok r) := by
  have hcall : Call demo .cmi .discrete (.str "discrete") (kwList []) .e := call "discrete", []
  refine C87_cmi_succeeds (demoAsks_cmi _ _ _) hcall.name (by simp) rfl ?_ (demo_args E 10 (by norm_num) _) (by norm_num) (.inr rfl)
    (fun d => demo_cmi_value d _ _ _ rfl rfl rfl) (fun d rows hl hr => demo_cmi_value d _ _ _ ?_ rfl rfl)
  · obtain ⟨p, e1, hr, ho⟩ := imTest_built E g (nT := some (.int 10)) (mth := some "bootstrap") (demoAsks_cmi (.ints [1, 1, 2]) (.ints [0, 3, 0]) (.ints [1, 0, 1])) hcall
      (demoNoNamed [] (by simp)) (by simp [requiredKw])
    have hx : [PyData.ints [1, 1, 2], .ints [0, 3, 0]].mapM PyData.toInts = some [[1, 1, 2], [0, 3, 0]] := rfl
    have g1 := getOpt (data := [.ints [1, 1, 2], .ints [0, 3, 0]]) (c := some (.ints [1, 0, 1])) ho (n := "base") (d := demo.b0) (by opt) hcall.base
    have g2 := getOpt (data := [.ints [1, 1, 2], .ints [0, 3, 0]]) (c := some (.ints [1, 0, 1])) ho (n := "offset") (d := .int 0) (g := PyVal.toOptInt) (v := some 0) (by opt) rfl
    rw [e1]
    simp [Est.test, Est.cmiObj, g1, g2, hx, PyData.toInts]
  · simpa [PyData.size] using hl

example := (demo_cmi_test E g).imp fun r hr => C87_cmi (demoAsks_cmi _ _ _) ⟨"discrete", rfl, by decide +kernel⟩ (f := .discrete) (by simp) rfl hr

/-- ordinal mutual information -/
theorem demo_ord_test : ∃ r, imTest E demo (some (.int 10)) (some "bootstrap") g [.reals [0, 2, 1, 5], .reals [3, 1, 2, 4]] none (.str "mutual information")
    (.str "ordinal") (kwList [("embedding_dim", .int 2)]) = some (.ok r) := by
  have hcall : Call demo .mi .ordinal (.str "ordinal") (kwList [("embedding_dim", .int 2)]) .e := call "ordinal", [("embedding_dim", .int 2)]
  have hnn : NoNamed (kwList [("embedding_dim", .int 2)]) := demoNoNamed _ (by decide +kernel)
  have h' : Call (demo.withDraw fun _ _ _ => 0) .mi .ordinal (.str "ordinal") (kwList [("embedding_dim", .int 2)]) .e := ⟨hcall.name, hcall.accepted, hcall.base⟩
  obtain ⟨v, ls, hv, -⟩ := C84_ordinal_mi_mean (W := demo.withDraw fun _ _ _ => 0) (b := .e) [0, 2, 1, 5] [3, 1, 2, 4] (demoAsks_mi _ _) h'
    hnn (by kw) rfl 2 false rfl rfl le_rfl (by simp) (by norm_num) trivial
  refine C87_ordinal_succeeds (demoAsks_mi _ _) (.inl rfl) hcall.name ?_ (demo_args E 10 (by norm_num) _) (by norm_num) (.inr rfl) hv
  obtain ⟨p, e1, hr, ho⟩ := imTest_built E g (nT := some (.int 10)) (mth := some "bootstrap") (demoAsks_mi (.reals [0, 2, 1, 5]) (.reals [3, 1, 2, 4])) hcall
    hnn (by simp [requiredKw, kwList])
  have hx : [PyData.reals [0, 2, 1, 5], .reals [3, 1, 2, 4]].mapM PyData.toSeries = some [[0, 2, 1, 5], [3, 1, 2, 4]] := rfl
  have g1 := getOpt (data := [.reals [0, 2, 1, 5], .reals [3, 1, 2, 4]]) (c := none) ho (n := "base") (d := demo.b0) (by opt) hcall.base
  have g2 := getOpt (data := [.reals [0, 2, 1, 5], .reals [3, 1, 2, 4]]) (c := none) ho (n := "offset") (d := .int 0) (g := PyVal.toOptInt) (v := some 0) (by opt) rfl
  have g3 := getOpt (data := [.reals [0, 2, 1, 5], .reals [3, 1, 2, 4]]) (c := none) ho (n := "embedding_dim") (d := .none) (g := PyVal.toArg) (v := .int 2) (by opt) rfl
  have g4 := getOpt (data := [.reals [0, 2, 1, 5], .reals [3, 1, 2, 4]]) (c := none) ho (n := "step_size") (d := .int 1) (g := PyVal.toArg) (v := .int 1) (by opt) rfl
  have g5 := getOpt (data := [.reals [0, 2, 1, 5], .reals [3, 1, 2, 4]]) (c := none) ho (n := "stable") (d := .bool false) (g := PyVal.toBool) (v := false) (by opt) rfl
  rw [e1]
  simp [Est.test, Est.miObj, Est.ord, g1, g2, g3, g4, g5, hx]

example := (demo_ord_test E g).imp fun r hr => C87_ordinal (demoAsks_mi _ _) (.inl rfl) ⟨"ordinal", rfl, by decide +kernel⟩ hr

/-- conditional transfer entropy -/
theorem demo_cte_test : ∃ r, imTest E demo (some (.int 10)) (some "permutation_test") g [.ints [1, 1, 2, 0], .ints [0, 3, 0, 1]] (some (.ints [1, 0, 0, 1]))
    (.str "te") (.str "mm") (kwList [("src_hist_len", .int 2)]) = some (.ok r) := by
  have hcall : Call demo .cte .millerMadow (.str "mm") (kwList [("src_hist_len", .int 2)]) .e := call "mm", [("src_hist_len", .int 2)]
  refine C87_cte_succeeds (demoAsks_cte _ _ _) hcall.name ?_ (demo_args E 10 (by norm_num) _) (by norm_num) (.inl rfl) (fun d => ?_)
  · obtain ⟨p, e1, hr, ho⟩ := imTest_built E g (nT := some (.int 10)) (mth := some "permutation_test")
      (demoAsks_cte (.ints [1, 1, 2, 0]) (.ints [0, 3, 0, 1]) (.ints [1, 0, 0, 1])) hcall trivial (by simp [requiredKw])
    have g1 := getOpt (data := [.ints [1, 1, 2, 0], .ints [0, 3, 0, 1]]) (c := some (.ints [1, 0, 0, 1])) ho (n := "base") (d := demo.b0) (by opt) hcall.base
    obtain ⟨g2, g3, g4⟩ := get_te (data := [.ints [1, 1, 2, 0], .ints [0, 3, 0, 1]]) (c := some (.ints [1, 0, 0, 1])) demoHistory (.inr rfl) ho
    have g5 := getOpt (data := [.ints [1, 1, 2, 0], .ints [0, 3, 0, 1]]) (c := some (.ints [1, 0, 0, 1])) ho (n := "cond_hist_len") (d := .int 1) (g := PyVal.toArg) (v := .int 1) (by opt) rfl
    rw [e1]
    simp [Est.test, Est.cteObj, g1, g2, g3, g4, g5, Est.pair, PyData.toInts]
  · have h' : Call (demo.withDraw d) .cte .millerMadow (.str "mm") (kwList [("src_hist_len", .int 2)]) .e := ⟨hcall.name, hcall.accepted, hcall.base⟩
    obtain ⟨v, ls, e, -⟩ := C84_cte_mean (W := demo.withDraw d) (b := .e) (q := 1) [1, 1, 2, 0] [0, 3, 0, 1] [1, 0, 0, 1] (demoAsks_cte _ _ _) (f := .millerMadow)
      h' (.inr rfl) demoHistory (by kw) (by norm_num) (by norm_num) (by norm_num) (by norm_num) (by norm_num)
      rfl rfl (by norm_num) trivial
    exact ⟨v, e⟩

example := (demo_cte_test E g).imp fun r hr => C87_cte (demoAsks_cte _ _ _) ⟨"mm", rfl, by decide +kernel⟩ (f := .millerMadow) hr

/-- transfer entropy -/
theorem demo_te_test : ∃ r, imTest E demo (some (.int 10)) (some "permutation_test") g [.ints [1, 1, 2, 0], .ints [0, 3, 0, 1]] none
    (.str "te") (.str "discrete") (kwList [("src_hist_len", .int 2)]) = some (.ok r) := by
  have hcall : Call demo .te .discrete (.str "discrete") (kwList [("src_hist_len", .int 2)]) .e := call "discrete", [("src_hist_len", .int 2)]
  obtain ⟨p, e1, hr, ho⟩ := imTest_built E g (nT := some (.int 10)) (mth := some "permutation_test")
    (demoAsks_te (.ints [1, 1, 2, 0]) (.ints [0, 3, 0, 1])) hcall (show kwList _ "cond_hist_len" = none by decide +kernel) (by simp [requiredKw])
  have g1 := getOpt (data := [.ints [1, 1, 2, 0], .ints [0, 3, 0, 1]]) (c := none) ho (n := "base") (d := demo.b0) (by opt) hcall.base
  obtain ⟨g2, g3, g4⟩ := get_te (data := [.ints [1, 1, 2, 0], .ints [0, 3, 0, 1]]) (c := none) demoHistory (.inl rfl) ho
  obtain ⟨r, hr, -⟩ := C44_discrete_te_test_succeeds E.rng (fun _ => E.next) [1, 1, 2, 0] [0, 3, 0, 1] 2 1 1 (by norm_num) (by norm_num) (by norm_num)
    (by norm_num) rfl (by norm_num) .e trivial (fun _ => .error .attributeError) E.cfg g 10 (by norm_num) "permutation_test" (.inl rfl)
  refine ⟨r, ?_⟩
  rw [e1]
  simp only [Est.test, Est.teObj, g1, g2, g3, g4, Est.pair, PyData.toInts, bind, Option.bind, Option.map_some, Option.some.injEq]
  rw [teInit_zero (source := ([1, 1, 2, 0] : List Int)) (dest := [0, 3, 0, 1]) rfl]
  rw [← hr]
  simp only [Except.bind, TEObj.test, pure, Except.pure]
  congr 2
  funext fl g'
  simp only [discreteTECalc, Prod.mk.injEq, and_true]
  cases teObservations ([1, 1, 2, 0] : List Int) [0, 3, 0, 1] (teParams 2 1 1).srcHist (teParams 2 1 1).destHist (teParams 2 1 1).step (teRandom E.rng fl g') with
  | error e => rfl
  | ok t =>
    simp only [bind, Except.bind]
    cases combinedTE (logBase .e) t none <;> rfl

example := (demo_te_test E g).imp fun r hr => C87_te (demoAsks_te _ _) ⟨"discrete", rfl, by decide +kernel⟩ (f := .discrete) hr

/-- entropies -/
theorem demo_h_value : ∃ v, imEstimator (demo.withDraw fun _ _ _ => 0) [.ints [1, 1, 2]] (.str "discrete") (kwList []) none (.str "Entropy") = .ok v := by
  have hcall : Call demo .h .discrete (.str "discrete") (kwList []) .e := call "discrete", []
  have h' : Call (demo.withDraw fun _ _ _ => 0) .h .discrete (.str "discrete") (kwList []) .e := ⟨hcall.name, hcall.accepted, hcall.base⟩
  have hv := C82_entropy .discrete (by simp [simpleFams]) h' trivial [1, 1, 2] (by simp)
  have hfac := C82_factory_entropy (W := demo.withDraw fun _ _ _ => 0) [.ints [1, 1, 2]] (.str "discrete") (kwList []) "Entropy" (demoNoNamed [] (by simp))
    (show measureComp demo.lower "Entropy" ∈ measureNames Kind.h by decide +kernel) (.inl rfl)
  exact ⟨_, hfac.trans hv⟩

example := demo_h_value.imp fun v hv => C87_entropy (E := E) (g := g) (nT := none) (mth := none) (demoAsks_h _) ⟨"discrete", rfl, by decide +kernel⟩
  (f := .discrete) _ hv

end

end Verif
