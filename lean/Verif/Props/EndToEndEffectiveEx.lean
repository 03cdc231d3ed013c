import Verif.Props.EndToEndEffective
import Verif.Props.EndToEndTestEx

/-!
# C88: concrete effective values that meet the hypotheses
-/

set_option linter.unusedSimpArgs false

namespace Verif

open Spec

section
variable {G : Type} (E : TestEnv G) (g : G)

theorem demo_te_value (d : Nat → Nat → Nat → ℝ) : ∃ v, imEstimator (demo.withDraw d) [.ints [1, 1, 2, 0], .ints [0, 3, 0, 1]] (.str "discrete")
    (kwList [("src_hist_len", .int 2)]) none (.str "te") = .ok v := by
  have hcall : Call demo .te .discrete (.str "discrete") (kwList [("src_hist_len", .int 2)]) .e := call "discrete", [("src_hist_len", .int 2)]
  have h' : Call (demo.withDraw d) .te .discrete (.str "discrete") (kwList [("src_hist_len", .int 2)]) .e := ⟨hcall.name, hcall.accepted, hcall.base⟩
  obtain ⟨v, ls, e, -⟩ := C84_te_mean (W := demo.withDraw d) (b := .e) [1, 1, 2, 0] [0, 3, 0, 1] (demoAsks_te _ _) (f := .discrete)
    h' (.inl rfl) (by decide +kernel) demoHistory (by norm_num) (by norm_num) (by norm_num) (by norm_num)
    rfl (by norm_num) trivial
  exact ⟨v, e⟩

/-- transfer entropy -/
theorem demo_te_effective : ∃ v, imEffective E demo (some "permutation_test") g [.ints [1, 1, 2, 0], .ints [0, 3, 0, 1]] none
    (.str "te") (.str "discrete") (kwList [("src_hist_len", .int 2)]) = some (.ok v) :=
  (demo_te_test E g).elim fun _ hr => C88_te_succeeds (demoAsks_te _ _) ⟨"discrete", rfl, by decide +kernel⟩ (f := .discrete) hr demo_te_value

example := (demo_te_effective E g).imp fun r hr => C88_te (demoAsks_te _ _) ⟨"discrete", rfl, by decide +kernel⟩ (f := .discrete) hr
example := C88_first_test_value (demoAsks_te _ _) ⟨"discrete", rfl, by decide +kernel⟩ (f := .discrete) (demo_te_effective E g).choose_spec (demo_te_test E g).choose_spec

theorem imEffective_built {W : World} {mth : Option String} {m : String} {data : List PyData} {c : Option PyData} {k : Kind} {f : Fam}
    {a : PyName} {kw : Kw} {b : Base} (hk : Asks W.lower m data c k) (h : Call W k f a kw b) (hkept : Kept kw k) (hr : ∀ r ∈ requiredKw k f, kw r ≠ none) :
    ∃ p, imEffective E W mth g data c (.str m) a kw = Est.effective E W mth g ⟨⟨k, f⟩, data, c, p⟩ ∧ (∀ r ∈ requiredKw k f, p r = kw r) ∧
      ∀ o ∈ optionalKw W.b0 ⟨k, f⟩, p o.1 = some (kwOr kw o.1 o.2) := by
  have hcall := asks_call (kw := kw) hk h.name
  obtain ⟨p, hp, h1, h2⟩ := local_ctor hk h hkept hr
  refine ⟨p, ?_, h1, h2⟩
  unfold imEffective; simp only [hcall, hp]

/-- conditional transfer entropy -/
theorem demo_cte_value (d : Nat → Nat → Nat → ℝ) : ∃ v, imEstimator (demo.withDraw d) [.ints [1, 1, 2, 0], .ints [0, 3, 0, 1]] (.str "mm")
    (kwList [("src_hist_len", .int 2)]) (some (.ints [1, 0, 0, 1])) (.str "te") = .ok v := by
  have hcall : Call demo .cte .millerMadow (.str "mm") (kwList [("src_hist_len", .int 2)]) .e := call "mm", [("src_hist_len", .int 2)]
  have h' : Call (demo.withDraw d) .cte .millerMadow (.str "mm") (kwList [("src_hist_len", .int 2)]) .e := ⟨hcall.name, hcall.accepted, hcall.base⟩
  obtain ⟨v, ls, e, -⟩ := C84_cte_mean (W := demo.withDraw d) (b := .e) (q := 1) [1, 1, 2, 0] [0, 3, 0, 1] [1, 0, 0, 1] (demoAsks_cte _ _ _) (f := .millerMadow)
    h' (.inr rfl) demoHistory (by kw) (by norm_num) (by norm_num) (by norm_num) (by norm_num) (by norm_num)
    rfl rfl (by norm_num) trivial
  exact ⟨v, e⟩

theorem demo_cte_effective (m : String) : imEffective E demo (some m) g [.ints [1, 1, 2, 0], .ints [0, 3, 0, 1]]
    (some (.ints [1, 0, 0, 1])) (.str "te") (.str "mm") (kwList [("src_hist_len", .int 2)]) ≠ none := by
  have hcall : Call demo .cte .millerMadow (.str "mm") (kwList [("src_hist_len", .int 2)]) .e := call "mm", [("src_hist_len", .int 2)]
  obtain ⟨p, e1, hr, ho⟩ := imEffective_built E g (mth := some m)
    (demoAsks_cte (.ints [1, 1, 2, 0]) (.ints [0, 3, 0, 1]) (.ints [1, 0, 0, 1])) hcall trivial (by simp [requiredKw])
  have g1 := getOpt (data := [.ints [1, 1, 2, 0], .ints [0, 3, 0, 1]]) (c := some (.ints [1, 0, 0, 1])) ho (n := "base") (d := demo.b0) (by opt) hcall.base
  obtain ⟨g2, g3, g4⟩ := get_te (data := [.ints [1, 1, 2, 0], .ints [0, 3, 0, 1]]) (c := some (.ints [1, 0, 0, 1])) demoHistory (.inr rfl) ho
  have g5 := getOpt (data := [.ints [1, 1, 2, 0], .ints [0, 3, 0, 1]]) (c := some (.ints [1, 0, 0, 1])) ho (n := "cond_hist_len") (d := .int 1) (g := PyVal.toArg) (v := .int 1) (by opt) rfl
  rw [e1]
  simp [Est.effective, Est.cteObj, g1, g2, g3, g4, g5, Est.pair, PyData.toInts]

example := (C88_cte_succeeds (demoAsks_cte _ _ _) ⟨"mm", rfl, by decide +kernel⟩ (f := .millerMadow) (demo_cte_effective E g "bootstrap") rfl (.inr rfl)
  demo_cte_value).imp fun r hr => C88_cte (demoAsks_cte _ _ _) ⟨"mm", rfl, by decide +kernel⟩ (f := .millerMadow) hr
example := C88_rejects (E := E) (g := g) (mth := some "jackknife") (demoAsks_cte _ _ _) (.inr rfl) (f := .millerMadow) ⟨"mm", rfl, by decide +kernel⟩
  (demo_cte_value (fun _ _ _ => 0)).choose_spec (demo_cte_effective E g "jackknife")

/-- entropies -/
example := demo_h_value.imp fun v hv => C88_no_effective (E := E) (g := g) (mth := none) (demoAsks_h _) (.inl rfl) (f := .discrete) ⟨"discrete", rfl, by decide +kernel⟩
  hv (by
    have hcall : Call demo .h .discrete (.str "discrete") (kwList []) .e := call "discrete", []
    obtain ⟨p, e1, -⟩ := imEffective_built E g (mth := none) (demoAsks_h (.ints [1, 1, 2])) hcall (demoNoNamed [] (by simp)) (by simp [requiredKw])
    rw [e1]; simp [Est.effective])

end

end Verif
