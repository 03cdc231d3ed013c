import Verif.Props.DivergenceBayes

/-!
# C104: the Bayesian cross-entropy and divergence of random samples
-/

namespace Verif

open Spec MeasureTheory ProbabilityTheory

section
variable {α : Type} [DecidableEq α]

theorem asb_prob_tendsto {S : Finset α} {L : ℕ → List α} (hL : ∀ n, ∀ w ∈ L n, w ∈ S) (hl : ∀ n, (L n).length = n) {p : ℝ} {w : α}
    (hp : Filter.Tendsto (fun n => freq (L n) w) Filter.atTop (nhds p)) (K : Option ℕ) (c : ℝ) :
    Filter.Tendsto (fun n => bayesProb (L n) (supportSize (L n) K) c w) Filter.atTop (nhds p) := by
  have hc : Filter.Tendsto (fun n : ℕ => c / (n : ℝ)) Filter.atTop (nhds 0) := tendsto_const_div_atTop_nhds_zero_nat _
  have hk : Filter.Tendsto (fun n : ℕ => supportSize (L n) K * (c / (n : ℝ))) Filter.atTop (nhds 0) := by
    cases K with
    | some k =>
      have := hc.const_mul (k : ℝ)
      rw [mul_zero] at this
      exact this
    | none =>
      have hb : Filter.Tendsto (fun n : ℕ => (S.card : ℝ) * |c / (n : ℝ)|) Filter.atTop (nhds 0) := by
        have := (hc.abs).const_mul (S.card : ℝ)
        rwa [abs_zero, mul_zero] at this
      refine squeeze_zero_norm (fun n => ?_) hb
      rw [Real.norm_eq_abs, abs_mul]
      refine mul_le_mul_of_nonneg_right ?_ (abs_nonneg _)
      have h0 : (0 : ℝ) ≤ (L n).toFinset.card := by positivity
      show |((L n).toFinset.card : ℝ)| ≤ _
      rw [abs_of_nonneg h0]
      exact divmm_card (hL n)
  have key : Filter.Tendsto (fun n => (freq (L n) w + c / (n : ℝ)) / (1 + supportSize (L n) K * (c / (n : ℝ)))) Filter.atTop (nhds ((p + 0) / (1 + 0))) :=
    (hp.add hc).div (tendsto_const_nhds.add hk) (by norm_num)
  rw [add_zero, add_zero, div_one] at key
  refine key.congr' ?_
  filter_upwards [Filter.eventually_gt_atTop 0] with n hn
  have hn' : (n : ℝ) ≠ 0 := by positivity
  unfold bayesProb freq
  rw [hl]
  have e1 : ((cnt (L n) w : ℝ) / n + c / n) = ((cnt (L n) w : ℝ) + c) / n := by ring
  have e2 : 1 + supportSize (L n) K * (c / (n : ℝ)) = ((n : ℝ) + supportSize (L n) K * c) / n := by field_simp
  rw [e1, e2, div_div_div_cancel_right₀ hn']

theorem asb_cross_tendsto {S : Finset α} {L L' : ℕ → List α} (hL : ∀ n, ∀ w ∈ L n, w ∈ S) (hL' : ∀ n, ∀ w ∈ L' n, w ∈ S)
    (hl : ∀ n, (L n).length = n) (hl' : ∀ n, (L' n).length = n) {p q : α → ℝ}
    (hp : ∀ a ∈ S, Filter.Tendsto (fun n => freq (L n) a) Filter.atTop (nhds (p a)))
    (hq : ∀ a ∈ S, Filter.Tendsto (fun n => freq (L' n) a) Filter.atTop (nhds (q a)))
    (h0 : ∀ a ∈ S, q a = 0 → ∀ n, a ∉ L' n) (K : Option ℕ) (c : ℝ) :
    Filter.Tendsto (fun n => crossBayes K (L n) c (L' n) c) Filter.atTop (nhds (crossOf S p q)) := by
  have e : crossOf S p q = - ∑ a ∈ S, if q a ≠ 0 then p a * Real.log (q a) else 0 := by unfold crossOf; rw [Finset.sum_filter]
  have e' : ∀ n, crossBayes K (L n) c (L' n) c = - ∑ a ∈ S, if a ∈ L n ∧ a ∈ L' n then
      bayesProb (L n) (supportSize (L n) K) c a * Real.log (bayesProb (L' n) (supportSize (L' n) K) c a) else 0 := fun n => by
    unfold crossBayes
    rw [← Finset.sum_filter]
    congr 1
    refine Finset.sum_congr ?_ fun _ _ => rfl
    ext a
    simp only [Finset.mem_inter, List.mem_toFinset, Finset.mem_filter]
    exact ⟨fun h => ⟨hL n a h.1, h⟩, fun h => h.2⟩
  rw [e]
  simp only [e']
  refine (tendsto_finset_sum _ fun a ha => ?_).neg
  by_cases hq0 : q a = 0
  · rw [if_neg (not_not.2 hq0)]
    refine tendsto_const_nhds.congr fun n => ?_
    rw [if_neg fun h => h0 a ha hq0 n h.2]
  · rw [if_pos hq0]
    have t := (asb_prob_tendsto hL hl (hp a ha) K c).mul ((asb_prob_tendsto hL' hl' (hq a ha) K c).log hq0)
    by_cases hp0 : p a = 0
    · rw [hp0, zero_mul] at t ⊢
      have t' := t.norm
      rw [norm_zero] at t'
      refine squeeze_zero_norm (fun n => ?_) t'
      split_ifs
      · exact le_rfl
      · rw [norm_zero]; exact norm_nonneg _
    · refine t.congr' ?_
      filter_upwards [(hp a ha).eventually_ne hp0, (hq a ha).eventually_ne hq0] with n h1 h2
      rw [if_pos ⟨by_contra fun h => h1 (freq_eq_zero h), by_contra fun h => h2 (freq_eq_zero h)⟩]

theorem asb_bayes (K : Option ℕ) (xs : List α) (c : ℝ) : bayes xs (supportSize xs K) c = crossBayes K xs c xs c := by
  unfold bayes crossBayes
  rw [Finset.inter_self]

theorem asb_shannon (S : Finset α) (p : α → ℝ) : crossOf S p p = shannon S p := by
  unfold crossOf shannon
  rw [Finset.sum_filter]
  congr 1
  refine Finset.sum_congr rfl fun a _ => ?_
  split_ifs with h
  · rfl
  · rw [not_not.1 h, zero_mul]

end

variable {Ω : Type} [MeasurableSpace Ω] {μ : Measure Ω} [IsProbabilityMeasure μ] {M M' : ℕ}
variable {W : World} {a : PyName} {kw : Kw} {b : Base}

/-- **C104** The Bayesian cross-entropy and divergence, with a number as `alpha` and any assumed alphabet size, converge almost surely to the same limits
as the plug-in ones: the prior is forgotten. -/
theorem C104_bayes (h : Call W .h .bayes a kw b) (hb : b.Valid) {c : ℝ} {K : Option ℕ} (hc : 0 ≤ c)
    (hal : (kw "alpha").bind PyVal.toAlpha = some (.num c)) (hKw : (kwOr kw "K" .none).toOptNat = some K) (hK : ∀ k, K = some k → 0 < k)
    {X Y : ℕ → Ω → Int} {S : Finset Int} {p q : Int → ℝ} (hM : 0 < M) (hX : Sampling μ X S p M) (hM' : 0 < M') (hY : Sampling μ Y S q M') :
    ∀ᵐ ω ∂μ, (∃ v : ℕ → ℝ, (∀ n, 0 < n → imCrossEntropy W [.ints (observed X n ω), .ints (observed Y n ω)] a .absent kw = .ok (v n)) ∧
        Filter.Tendsto v Filter.atTop (nhds (crossOf S p q / b.ln))) ∧
      ∃ v : ℕ → ℝ, (∀ n, 0 < n → imKld W (.ints (observed X n ω)) (.ints (observed Y n ω)) (some a) .absent kw = .ok (v n)) ∧
        Filter.Tendsto v Filter.atTop (nhds ((crossOf S p q - shannon S p) / b.ln)) := by
  filter_upwards [as_freq hM hX, as_freq hM' hY, asd_zero hX, asd_zero hY] with ω hx hy h0x h0
  have lx := fun n => observed_length X n ω
  have ly := fun n => observed_length Y n ω
  have t := asb_cross_tendsto hx.1 hy.1 lx ly hx.2 hy.2 h0 K c
  refine ⟨⟨fun n => _, fun n hn => C83_cross_entropy_bayes h hb hal hKw hK _ _ (observed_ne X hn ω) (observed_ne Y hn ω) hc hc (.inl rfl) (.inl rfl),
    t.div_const _⟩, fun n => _, fun n hn => C83_kld_bayes_value h hb hal hKw hK _ _ (observed_ne X hn ω) (observed_ne Y hn ω) hc hc (.inl rfl) (.inl rfl), ?_⟩
  have t2 := asb_cross_tendsto hx.1 hx.1 lx lx hx.2 hx.2 h0x K c
  rw [asb_shannon] at t2
  simp only [asb_bayes]
  exact (t.sub t2).div_const _

example := C104_bayes (b := .num 2) (c := 1 / 2) (K := some 4) (call "bayes", [("alpha", .num (1 / 2)), ("K", .int 4), ("base", .int 2)])
  (by norm_num [Base.Valid]) (by norm_num) (by kw) (by first | rfl | simp [kwOr, kwList, PyVal.toOptNat]) (by simp) one_pos (C94_iid asdEx_fst) one_pos (C94_iid asdEx_both)

end Verif
