import Verif.Props.DivergenceMM
import Verif.Props.EndToEndEx

/-!
# C83: the Bayesian cross-entropy and divergence
-/

namespace Verif

namespace Spec

/-- Bayesian cross-entropy: `− Σ p log q` over the symbols that occur in both samples, with the Bayesian probabilities of either sample -/
noncomputable def crossBayes {α : Type} [DecidableEq α] (K : Option ℕ) (xs : List α) (c : ℝ) (ys : List α) (c' : ℝ) : ℝ :=
  - ∑ a ∈ xs.toFinset ∩ ys.toFinset, bayesProb xs (supportSize xs K) c a * Real.log (bayesProb ys (supportSize ys K) c' a)

end Spec

open Spec

theorem divb_kEff {α : Type} [LinearOrder α] (K : Option ℕ) (xs : List α) : kEff xs K = supportSize xs K := by cases K <;> rfl

theorem divb_ne {K : Option ℕ} (hK : ∀ k, K = some k → 0 < k) {xs : List Int} (hx : xs ≠ []) : kEff xs K ≠ 0 := by
  cases K with
  | none => exact (card_pos_real hx).ne'
  | some k => have := hK k rfl; simp only [kEff]; positivity

theorem divb_cross {al : AlphaArg} {K : Option ℕ} (hK : ∀ k, K = some k → 0 < k) (xs ys : List Int) (hx : xs ≠ []) (hy : ys ≠ []) {c c' : ℝ}
    (hc : 0 ≤ c) (hc' : 0 ≤ c') (p : PriorIs al (supportSize xs K) xs.length c) (p' : PriorIs al (supportSize ys K) ys.length c') {b : Base}
    (hb : b.Valid) : bayesCross al K b (mkData xs) (mkData ys) = .ok (crossBayes K xs c ys c' / b.ln) := by
  rw [← divb_kEff] at p p'
  have e1 := bayesProbs_eq hx al K (getAlpha_of_prior (divb_ne hK hx) p) hc
  have e2 := bayesProbs_eq hy al K (getAlpha_of_prior (divb_ne hK hy) p') hc'
  rw [bayesP_spec] at e1 e2
  unfold bayesCross crossBayes
  rw [e1, e2, ← divb_kEff, ← divb_kEff]
  simp only [bind, Except.bind, mkData_uniq]
  have ht := cross_terms xs ys (bayesProb xs (kEff xs K) c) (bayesProb ys (kEff ys K) c') hb (fun a ha =>
    bayesP_pos hy (kEff_nonneg ys K) hc' _ (by rw [bayesP_spec]; exact List.mem_map.2 ⟨a, mem_npUnique.2 ha, rfl⟩))
  by_cases h0 : (commonSupport (npUnique xs) (npUnique ys)).length = 0
  · simp only [h0, if_true]
    simp [(common_length xs ys).1 h0]
  · simp only [bind, Except.bind, pure, Except.pure] at ht
    simp only [h0, if_false, ht, pure, Except.pure]
    rw [common_sum, neg_div, Finset.sum_div]
    congr 2
    exact Finset.sum_congr rfl fun a _ => by ring

variable {W : World} {a : PyName} {kw : Kw} {b : Base}

/-- **C83** `im.cross_entropy(x, y, approach="bayes", alpha=…, K=…)`: the cross-entropy of the Bayesian probabilities `(n + α)/(N + K α)` of the two
samples over their common symbols, where a named prior is evaluated for either sample. -/
theorem C83_cross_entropy_bayes (h : Call W .h .bayes a kw b) (hb : b.Valid) {al : AlphaArg} {K : Option ℕ}
    (hal : (kw "alpha").bind PyVal.toAlpha = some al) (hKw : (kwOr kw "K" .none).toOptNat = some K) (hK : ∀ k, K = some k → 0 < k)
    (xs ys : List Int) (hx : xs ≠ []) (hy : ys ≠ []) {c c' : ℝ} (hc : 0 ≤ c) (hc' : 0 ≤ c')
    (p : PriorIs al (supportSize xs K) xs.length c) (p' : PriorIs al (supportSize ys K) ys.length c') :
    imCrossEntropy W [.ints xs, .ints ys] a .absent kw = .ok (crossBayes K xs c ys c' / b.ln) := by
  have hm : [PyData.ints xs, PyData.ints ys].mapM PyData.toEInput = some [.arr1 xs, .arr1 ys] := rfl
  rw [(e2e_h_bayes h.name h.accepted hal hKw h.base hm).2 (by simp)]
  simp only [DClass.globalVal, discreteHInit_pair hx hy, bind, Except.bind, entropyDispatch, DClass.cross]
  exact divb_cross hK xs ys hx hy hc hc' p p' hb

/-- **C83** `im.kld(x, y, approach="bayes", alpha=…, K=…)`: the Bayesian cross-entropy minus the Bayesian entropy. -/
theorem C83_kld_bayes_value (h : Call W .h .bayes a kw b) (hb : b.Valid) {al : AlphaArg} {K : Option ℕ}
    (hal : (kw "alpha").bind PyVal.toAlpha = some al) (hKw : (kwOr kw "K" .none).toOptNat = some K) (hK : ∀ k, K = some k → 0 < k)
    (xs ys : List Int) (hx : xs ≠ []) (hy : ys ≠ []) {c c' : ℝ} (hc : 0 ≤ c) (hc' : 0 ≤ c')
    (p : PriorIs al (supportSize xs K) xs.length c) (p' : PriorIs al (supportSize ys K) ys.length c') :
    imKld W (.ints xs) (.ints ys) (some a) .absent kw = .ok ((crossBayes K xs c ys c' - bayes xs (supportSize xs K) c) / b.ln) := by
  refine kld_of_values h.name (by decide) ?_
  have e1 := (e2e_h_bayes h.name h.accepted hal hKw h.base (data := [.ints xs]) (xs := [.arr1 xs]) rfl).1
  have e2 : (DClass.bayes al K).globalVal b [.arr1 xs] = bayesSimple al K b (mkData xs) := by
    simp only [DClass.globalVal, discreteHInit_arr1 hx, bind, Except.bind, entropyDispatch, DClass.simple]
  have e3 := bayesSimple_ok hx al K (getAlpha_of_prior (divb_ne hK hx) (by rw [divb_kEff]; exact p)) hc hb
  rw [C83_cross_entropy_bayes h hb hal hKw hK xs ys hx hy hc hc' p p', e1, e2, e3, divb_kEff]
  simp only [bind, Except.bind, pure, Except.pure, sub_div]

example := C83_kld_bayes_value (b := .num 2) (al := .num (1 / 2)) (K := some 4) (call "bayes", [("alpha", .num (1 / 2)), ("K", .int 4), ("base", .int 2)])
  (by norm_num [Base.Valid]) (by kw) (by first | rfl | (kw; rfl) | simp [kwOr, kwList, PyVal.toOptNat]) (by simp) [5, 7, 5] [7, 9] (by decide) (by decide) (c := 1 / 2) (c' := 1 / 2) (by norm_num) (by norm_num)
  (by simp [PriorIs]) (by simp [PriorIs])

end Verif
