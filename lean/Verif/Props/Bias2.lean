import Verif.Lemmas.Bias5
import Verif.Props.Bias
import Mathlib.Tactic.FinCases

/-! # Properties C30–C35 : Chao–Shen, Chao–Wang–Jost, shrinkage, Bayes, Zhang, Bonachela -/

namespace Verif

open Spec

/-! ## C30 Chao–Shen -/

/-- **C30** For every non-empty sample the coverage is in `(0, 1]`, every inclusion probability is in
`(0, 1]`, and the estimate is finite, equal to the published formula, at least the coverage-scaled
sum and non-negative. -/
theorem C30_chao_shen_well_defined (xs : List Int) (h : xs ≠ []) (b : Base) (hb : b.Std) :
    (0 < coverage xs ∧ coverage xs ≤ 1) ∧
    (∀ a ∈ xs, 0 < 1 - (1 - coverage xs * freq xs a) ^ xs.length ∧
      1 - (1 - coverage xs * freq xs a) ^ xs.length ≤ 1) ∧
    (chaoShenH b).entropy (.arr1 xs) = .ok (chaoShen xs / b.ln) ∧
    (- ∑ a ∈ xs.toFinset, (coverage xs * freq xs a) * Real.log (coverage xs * freq xs a)) / b.ln ≤
      chaoShen xs / b.ln ∧
    0 ≤ chaoShen xs / b.ln := by
  have hc := coverage_pos h
  have hc1 := coverage_le_one h
  have hln := hb.ln_pos
  have hterm : ∀ a ∈ xs, (coverage xs * freq xs a) * Real.log (coverage xs * freq xs a) ≤ 0 := by
    intro a ha
    have h1 : 0 < coverage xs * freq xs a := mul_pos hc (freq_pos ha)
    have h2 : coverage xs * freq xs a ≤ 1 := mul_le_one₀ hc1 (freq_nonneg xs a) (freq_le_one xs a)
    exact mul_nonpos_of_nonneg_of_nonpos h1.le (Real.log_nonpos h1.le h2)
  have hle : - ∑ a ∈ xs.toFinset, (coverage xs * freq xs a) * Real.log (coverage xs * freq xs a) ≤
      chaoShen xs := by
    unfold chaoShen
    rw [neg_le_neg_iff]
    refine Finset.sum_le_sum fun a ha => ?_
    have ha := List.mem_toFinset.1 ha
    rw [div_le_iff₀ (incl_pos h ha)]
    have := hterm a ha
    have := incl_le_one h a
    nlinarith
  have h0 : 0 ≤ - ∑ a ∈ xs.toFinset, (coverage xs * freq xs a) * Real.log (coverage xs * freq xs a) := by
    rw [neg_nonneg]
    exact Finset.sum_nonpos fun a ha => hterm a (List.mem_toFinset.1 ha)
  exact ⟨⟨hc, hc1⟩, fun a ha => ⟨incl_pos h ha, incl_le_one h a⟩,
    (HEst.entropy_arr1 _ h).trans (chaoShenSimple_ok h hb.valid),
    (div_le_div_iff_of_pos_right hln).2 hle, div_nonneg (h0.trans hle) hln.le⟩

/-- all symbols distinct: the hypotheses hold and the singleton rule is in effect -/
example : coverage [3, 1, (2 : Int)] = 1 / 3 := by
  have : occurring [3, 1, (2 : Int)] 1 = 3 := by decide
  simp [coverage, this]; norm_num

/-! ## C31 Chao–Wang–Jost -/

/-- **C31** For every non-empty sample the parameter `A` is in `(0, 1]`, the correction is
non-negative, and the estimate is finite, equal to the published formula and non-negative. -/
theorem C31_chao_wang_jost_well_defined (xs : List Int) (h : xs ≠ []) (b : Base) (hb : b.Std) :
    (0 < cwjParam xs ∧ cwjParam xs ≤ 1) ∧ 0 ≤ cwjCorr xs ∧
    (chaoWangJostH b).entropy (.arr1 xs) = .ok (chaoWangJost xs / b.ln) ∧
    0 ≤ chaoWangJost xs / b.ln := by
  refine ⟨⟨cwjParam_pos h, cwjParam_le_one h⟩, cwjCorr_nonneg h,
    (HEst.entropy_arr1 _ h).trans (cwjSimple_ok h hb.valid), div_nonneg ?_ hb.ln_pos.le⟩
  unfold chaoWangJost
  refine add_nonneg (Finset.sum_nonneg fun a _ => mul_nonneg (freq_nonneg xs a)
    (Finset.sum_nonneg fun k _ => by positivity)) ?_
  split_ifs
  · exact cwjCorr_nonneg h
  · exact le_rfl

/-- a sample with one singleton and one doubleton, where the correction is in effect -/
example : 0 < occurring [0, 0, (1 : Int)] 1 ∧ cwjParam [0, 0, (1 : Int)] = 1 / 2 := by
  have h1 : occurring [0, 0, (1 : Int)] 1 = 1 := by decide
  have h2 : occurring [0, 0, (1 : Int)] 2 = 1 := by decide
  refine ⟨by rw [h1]; norm_num, ?_⟩
  simp [cwjParam, h1, h2]; norm_num

/-! ## C32 Shrinkage -/

/-- **C32** For every non-empty sample the shrinkage weight is in `[0, 1]`, the shrunk probabilities are
positive and sum to one, the estimate is their entropy, and it lies between the plug-in entropy and
`log K`. -/
theorem C32_shrinkage (xs : List Int) (h : xs ≠ []) (b : Base) (hb : b.Std) :
    (0 ≤ shrinkWeight xs ∧ shrinkWeight xs ≤ 1) ∧
    (∀ a ∈ xs, 0 < shrinkProb xs a) ∧ ∑ a ∈ xs.toFinset, shrinkProb xs a = 1 ∧
    ∃ v p, (shrinkH b).entropy (.arr1 xs) = .ok v ∧ (pluginH b).entropy (.arr1 xs) = .ok p ∧
      v = shrink xs / b.ln ∧ p ≤ v ∧ v ≤ Real.log xs.toFinset.card / b.ln := by
  have hpos := shrinkProbs_pos h
  have hsum := shrinkProbs_sum h
  have hmix := entropyOf_mix (freqs_pos xs) (freqs_sum h) (lambdaOf_mem xs).1 (lambdaOf_mem xs).2
  rw [freqs_length, ← shrinkProbs_eq, entropyOf_freqs, entropyOf_shrink h] at hmix
  have hup := entropyOf_le_log hpos hsum
  rw [entropyOf_shrink h, shrinkProbs_eq, List.length_map, freqs_length] at hup
  rw [shrinkProbs_spec h] at hpos hsum
  have hs : shrinkSimple b (mkData xs) = .ok (shrink xs / b.ln) := by
    rw [shrinkSimple_ok h hb.valid, entropyOf_shrink h]
  refine ⟨shrinkWeight_mem xs, fun a ha => hpos _ (List.mem_map.2 ⟨a, mem_npUnique.2 ha, rfl⟩),
    by rw [← sum_npUnique']; exact hsum, _, _,
    (HEst.entropy_arr1 _ h).trans hs,
    (HEst.entropy_arr1 _ h).trans (discreteSimple_ok hb.valid), rfl, ?_, ?_⟩
  · exact (div_le_div_iff_of_pos_right hb.ln_pos).2 hmix
  · exact (div_le_div_iff_of_pos_right hb.ln_pos).2 hup

example := C32_shrinkage [5, 7, 5] (by decide) (.num 2) (by norm_num [Base.Std])

/-- the sample `0,0,0,0,0,0,0,1` and its intermediate quantities -/
theorem shrink_witness (xs : List Int) (hxs : xs = [0, 0, 0, 0, 0, 0, 0, 1]) :
    xs.toFinset = {0, 1} ∧ freq xs 0 = 7 / 8 ∧ freq xs 1 = 1 / 8 ∧ shrinkWeight xs = 1 / 9 ∧
      shrinkProb xs 0 = 5 / 6 ∧ shrinkProb xs 1 = 1 / 6 := by
  have h1 : xs.toFinset = {0, 1} := by rw [hxs]; decide
  have hc0 : cnt xs 0 = 7 := by rw [hxs]; decide
  have hc1 : cnt xs 1 = 1 := by rw [hxs]; decide
  have hl : xs.length = 8 := by rw [hxs]; rfl
  have f0 : freq xs 0 = 7 / 8 := by unfold freq; rw [hc0, hl]; norm_num
  have f1 : freq xs 1 = 1 / 8 := by unfold freq; rw [hc1, hl]; norm_num
  have hcard : ({0, 1} : Finset Int).card = 2 := by decide
  have hsum : ∀ f : Int → ℝ, ∑ a ∈ ({0, 1} : Finset Int), f a = f 0 + f 1 := fun f =>
    Finset.sum_pair (by decide)
  have hw : shrinkWeight xs = 1 / 9 := by
    unfold shrinkWeight
    simp only [h1, hcard, hsum, f0, f1, hl]
    norm_num
  refine ⟨h1, f0, f1, hw, ?_, ?_⟩
  · unfold shrinkProb; rw [hw, h1, hcard, f0]; norm_num
  · unfold shrinkProb; rw [hw, h1, hcard, f1]; norm_num

/-- a sample with weight strictly between 0 and 1 -/
example : shrinkWeight [0, 0, 0, 0, 0, 0, 0, (1 : Int)] = 1 / 9 := (shrink_witness _ rfl).2.2.2.1

/-! ## C33 Bayes -/

/-- the numerical value of a valid prior on a sample of size `n` with support size `k` -/
def PriorIs (alpha : AlphaArg) (k : ℝ) (n : ℝ) (a : ℝ) : Prop :=
  alpha = .num a ∨ (∃ s, alpha = .str s ∧ s.toLower = "jeffrey" ∧ a = 1 / 2) ∨
  (∃ s, alpha = .str s ∧ s.toLower = "laplace" ∧ a = 1) ∨
  (∃ s, alpha = .str s ∧ s.toLower = "sch-grass" ∧ a = 1 / k) ∨
  (alpha = .str "min-max" ∧ a = Real.sqrt n / k)

theorem getAlpha_of_prior {alpha : AlphaArg} {k n a : ℝ} (hk : k ≠ 0) (h : PriorIs alpha k n a) :
    getAlpha alpha k n = .ok a := by
  rcases h with rfl | ⟨s, rfl, hs, rfl⟩ | ⟨s, rfl, hs, rfl⟩ | ⟨s, rfl, hs, rfl⟩ | ⟨rfl, rfl⟩
  · rfl
  · simp [getAlpha, hs]
  · simp [getAlpha, hs]
  · simp [getAlpha, hs, npDiv_ok hk]
  · have : "min-max".toLower = "min-max" := by decide +kernel
    simp [getAlpha, this, npDiv_ok hk]

theorem card_pos_real {xs : List Int} (h : xs ≠ []) : (0:ℝ) < xs.toFinset.card := by
  rw [← freqs_length]
  have := freqs_sum h
  exact_mod_cast List.length_pos_iff.2 (by rintro h0; rw [h0] at this; simp at this)

/-- **C33** With the observed support size and any prior (a number `≥ 0`, or one of the documented names
with its documented value) the Bayesian probabilities are positive and sum to one, the estimate is their
entropy and lies between `0` and `log K`. -/
theorem C33_bayes_observed_support (xs : List Int) (h : xs ≠ []) (alpha : AlphaArg) (a : ℝ) (h0 : 0 ≤ a)
    (ha : PriorIs alpha xs.toFinset.card xs.length a) (b : Base) (hb : b.Std) :
    (∀ s ∈ xs, 0 < bayesProb xs xs.toFinset.card a s) ∧
    ∑ s ∈ xs.toFinset, bayesProb xs xs.toFinset.card a s = 1 ∧
    (bayesH alpha none b).entropy (.arr1 xs) = .ok (bayes xs xs.toFinset.card a / b.ln) ∧
    0 ≤ bayes xs xs.toFinset.card a / b.ln ∧
    bayes xs xs.toFinset.card a / b.ln ≤ Real.log xs.toFinset.card / b.ln := by
  have hK := card_pos_real h
  have hN := length_pos_real h
  have hpos := bayesP_pos h hK.le h0
  have hsum : (bayesP xs xs.toFinset.card a).sum = 1 := by
    rw [bayesP_sum]
    have := mul_nonneg hK.le h0
    exact div_self (by positivity)
  have e := entropyOf_bayes xs xs.toFinset.card a
  have hup := entropyOf_le_log hpos hsum
  have hlo := entropyOf_nonneg (fun p hp => ⟨hpos p hp, le_one_of_sum hpos hsum p hp⟩)
  rw [e] at hup hlo
  rw [bayesP_length] at hup
  have hg := bayesSimple_ok h alpha none (getAlpha_of_prior hK.ne' ha) h0 hb.valid
  refine ⟨fun s hs => hpos _ (List.mem_map.2 ⟨s, mem_npUnique.2 hs, rfl⟩),
    by rw [← sum_npUnique']; exact hsum, (HEst.entropy_arr1 _ h).trans hg,
    div_nonneg hlo hb.ln_pos.le, (div_le_div_iff_of_pos_right hb.ln_pos).2 hup⟩

example := C33_bayes_observed_support [5, 7, 5] (by decide) (.str "Jeffrey") (1 / 2) (by norm_num)
  (.inr (.inl ⟨_, rfl, by decide +kernel, rfl⟩)) (.num 2) (by norm_num [Base.Std])

/-- **C33** Concentration 0 gives the plug-in estimate, whatever support size is passed. -/
theorem C33_bayes_alpha_zero (xs : List Int) (h : xs ≠ []) (kp : Option Nat) (b : Base) (hb : b.Valid) :
    (bayesH (.num 0) kp b).entropy (.arr1 xs) = (pluginH b).entropy (.arr1 xs) := by
  rw [HEst.entropy_arr1 _ h, HEst.entropy_arr1 _ h]
  show bayesSimple (.num 0) kp b (mkData xs) = discreteSimple b (mkData xs)
  rw [bayesSimple_ok h (.num 0) kp rfl le_rfl hb, discreteSimple_ok hb]
  unfold bayes entropy bayesProb freq
  simp

example := C33_bayes_alpha_zero [5, 7, 5] (by decide) (some 4) (.num 2) (by norm_num [Base.Valid])

/-- **C33** (negative) A support size larger than the observed one, with a positive concentration:
the probabilities the estimator uses sum to less than one. -/
theorem C33_bayes_larger_support_not_normalised (xs : List Int) (h : xs ≠ []) (K : Nat)
    (hK : xs.toFinset.card < K) (a : ℝ) (ha : 0 < a) (b : Base) (hb : b.Valid) :
    (bayesH (.num a) (some K) b).entropy (.arr1 xs) = .ok (bayes xs K a / b.ln) ∧
    ∑ s ∈ xs.toFinset, bayesProb xs K a s < 1 := by
  have hN := length_pos_real h
  refine ⟨(HEst.entropy_arr1 _ h).trans (bayesSimple_ok h (.num a) (some K) rfl ha.le hb), ?_⟩
  have : ∑ s ∈ xs.toFinset, bayesProb xs K a s = (bayesP xs K a).sum := by
    rw [bayesP_spec, sum_npUnique']
  rw [this, bayesP_sum, div_lt_one (by positivity)]
  have : (xs.toFinset.card : ℝ) < K := by exact_mod_cast hK
  nlinarith

example := C33_bayes_larger_support_not_normalised [5, 7, 5] (by decide) 4 (by decide) 1 (by norm_num) (.num 2) (by norm_num [Base.Valid])

/-- **C33** (negative) The name `min-max` is accepted in lower case only, unlike the other names: any
other capitalisation is a ValueError. -/
theorem C33_min_max_case_sensitive (xs : List Int) (h : xs ≠ []) (s : String)
    (hs : s.toLower = "min-max") (hne : s ≠ "min-max") (kp : Option Nat) (b : Base) :
    (bayesH (.str s) kp b).entropy (.arr1 xs) = .error .valueError := by
  rw [HEst.entropy_arr1 _ h]
  show bayesSimple (.str s) kp b (mkData xs) = _
  simp [bayesSimple, bayesProbs, getAlpha, hs, hne, bind, Except.bind]

example := C33_min_max_case_sensitive [5, 7, 5] (by decide) "Min-Max" (by decide +kernel) (by decide) none .e

/-- **C33** Unknown names are a ValueError. -/
theorem C33_unknown_prior (xs : List Int) (h : xs ≠ []) (s : String)
    (hs : s.toLower ∉ ["jeffrey", "laplace", "sch-grass", "min-max"]) (kp : Option Nat) (b : Base) :
    (bayesH (.str s) kp b).entropy (.arr1 xs) = .error .valueError := by
  rw [HEst.entropy_arr1 _ h]
  show bayesSimple (.str s) kp b (mkData xs) = _
  simp only [bayesSimple, bayesProbs, getAlpha, if_pos hs, bind, Except.bind]

example : PriorIs (.str "Laplace") 2 8 1 :=
  Or.inr (Or.inr (Or.inl ⟨_, rfl, by decide +kernel, rfl⟩))
example : "Min-Max".toLower = "min-max" ∧ "Min-Max" ≠ "min-max" := ⟨by decide +kernel, by decide⟩

/-! ## C34 Local values average to the global value -/

/-- **C34** Miller–Madow, Grassberger and Zhang: one local value per sample, averaging to the global
value. -/
theorem C34_local_mean (xs : List Int) (h : xs ≠ []) (b : Base) (hb : b.Valid) (est : HEst)
    (he : est = millerMadowH b ∨ est = grassbergerH b ∨ est = zhangH b) :
    ∃ g ls, est.entropy (.arr1 xs) = .ok g ∧ est.locals (.arr1 xs) = .ok ls ∧
      ls.length = xs.length ∧ Spec.mean ls = g := by
  rcases he with rfl | rfl | rfl
  · exact C19_mm_local_mean xs h b hb
  · rw [HEst.entropy_arr1 _ h, HEst.locals_arr1 _ h]
    refine ⟨_, _, grassbergerSimple_ok h hb, grassbergerLocal_ok h hb, by simp, ?_⟩
    rw [mean_map_sample, sum_scale]; rfl
  · rw [HEst.entropy_arr1 _ h, HEst.locals_arr1 _ h]
    refine ⟨_, _, zhangSimple_ok xs hb, zhangLocal_ok xs hb, by simp, ?_⟩
    rw [mean_map_sample, sum_scale]; rfl

example := C34_local_mean [5, 7, 5] (by decide) (.num 2) (by norm_num [Base.Valid]) _ (.inr (.inl rfl))

/-- **C34** Grassberger's estimate is the published formula. -/
theorem C34_grassberger_value (xs : List Int) (h : xs ≠ []) (b : Base) (hb : b.Valid) :
    (grassbergerH b).entropy (.arr1 xs) = .ok (grassberger xs / b.ln) :=
  (HEst.entropy_arr1 _ h).trans (grassbergerSimple_ok h hb)

example := C34_grassberger_value [5, 7, 5] (by decide) (.num 2) (by norm_num [Base.Valid])

theorem shrink_global_witness (xs : List Int) (hxs : xs = [0, 0, 0, 0, 0, 0, 0, 1]) :
    shrinkSimple .e (mkData xs) = .ok (Real.log 6 - 5 / 6 * Real.log 5) := by
  have hne : xs ≠ [] := by rw [hxs]; simp
  obtain ⟨h1, -, -, -, p0, p1⟩ := shrink_witness xs hxs
  rw [shrinkSimple_ok hne (b := .e) trivial, entropyOf_shrink hne]
  congr 1
  unfold shrink
  rw [h1, Finset.sum_pair (by decide), p0, p1]
  simp only [Base.ln, div_one]
  rw [Real.log_div (by norm_num) (by norm_num), Real.log_div (by norm_num) (by norm_num), Real.log_one]
  ring

theorem shrink_local_witness (xs : List Int) (hxs : xs = [0, 0, 0, 0, 0, 0, 0, 1]) :
    ∃ ls, shrinkLocal .e (mkData xs) = .ok ls ∧ ls.length = 8 ∧
      Spec.mean ls = Real.log 6 - 7 / 8 * Real.log 5 := by
  have hne : xs ≠ [] := by rw [hxs]; simp
  obtain ⟨h1, f0, f1, -, p0, p1⟩ := shrink_witness xs hxs
  refine ⟨_, shrinkLocal_ok hne (b := .e) trivial, by simp [hxs], ?_⟩
  rw [mean_map_sample, h1, Finset.sum_pair (by decide), f0, f1]
  rw [lambdaOf_eq hne]
  have e0 : shrinkWeight xs * (1 / (xs.toFinset.card : ℝ)) + (1 - shrinkWeight xs) * freq xs 0 = 5 / 6 := p0
  have e1 : shrinkWeight xs * (1 / (xs.toFinset.card : ℝ)) + (1 - shrinkWeight xs) * freq xs 1 = 1 / 6 := p1
  rw [h1, f0] at e0
  rw [h1, f1] at e1
  rw [e0, e1]
  simp only [Base.ln, div_one]
  rw [Real.log_div (by norm_num) (by norm_num), Real.log_div (by norm_num) (by norm_num), Real.log_one]
  ring

/-- **C34** (negative) Shrinkage: on `0,0,0,0,0,0,0,1` the mean of the local values is not the global
value. -/
theorem C34_shrink_local_mean_fails :
    ∃ g ls, (shrinkH .e).entropy (.arr1 [0, 0, 0, 0, 0, 0, 0, 1]) = .ok g ∧
      (shrinkH .e).locals (.arr1 [0, 0, 0, 0, 0, 0, 0, 1]) = .ok ls ∧ Spec.mean ls ≠ g := by
  obtain ⟨ls, h1, h2, h3⟩ := shrink_local_witness _ rfl
  rw [HEst.entropy_arr1 _ (by simp), HEst.locals_arr1 _ (by simp)]
  refine ⟨_, ls, shrink_global_witness _ rfl, h1, ?_⟩
  rw [h3]
  have : 0 < Real.log 5 := Real.log_pos (by norm_num)
  intro h
  linarith

theorem jointCodes_witness : jointCodes 8 [[0, 0, 0, 0, 0, 0, 0, 1], [0, 0, 0, 0, 0, 0, 0, 1]] =
    [0, 0, 0, 0, 0, 0, 0, 1] := by
  have h : npUnique (Spec.rows 8 [[0, 0, 0, 0, 0, 0, 0, 1], [0, 0, 0, 0, 0, 0, 0, (1 : Int)]]) =
      [[0, 0], [1, 1]] := by
    refine npUnique_eq (by decide) fun a => ?_
    have : Spec.rows 8 [[0, 0, 0, 0, 0, 0, 0, 1], [0, 0, 0, 0, 0, 0, 0, (1 : Int)]] =
      [[0, 0], [0, 0], [0, 0], [0, 0], [0, 0], [0, 0], [0, 0], [1, 1]] := by decide
    rw [this]
    simp
  unfold jointCodes npInverse npPos
  rw [h]
  decide

/-- **C34** (negative) Consequence for mutual information: the shrinkage mutual information of a
variable with itself is not the combination of the shrinkage entropies. -/
theorem C34_shrink_mi_not_entropy_combination :
    ∃ hx hxy m, (shrinkH .e).entropy (.arr1 [0, 0, 0, 0, 0, 0, 0, 1]) = .ok hx ∧
      (shrinkH .e).entropy (.tup [[0, 0, 0, 0, 0, 0, 0, 1], [0, 0, 0, 0, 0, 0, 0, 1]]) = .ok hxy ∧
      genericMI (shrinkH .e) [[0, 0, 0, 0, 0, 0, 0, 1], [0, 0, 0, 0, 0, 0, 0, 1]] (some 0) = .ok m ∧
      m ≠ hx + hx - hxy := by
  obtain ⟨ls, h1, h2, h3⟩ := shrink_local_witness _ rfl
  have hc : hConstruct (.tup [[0, 0, 0, 0, 0, 0, 0, 1], [0, 0, 0, 0, 0, 0, 0, 1]]) =
      .ok (mkData [0, 0, 0, 0, 0, 0, 0, 1]) := by
    rw [hConstruct_tup (n := 8) (by norm_num) (by simp) (by decide), jointCodes_witness]
  have hc1 : hConstruct (.arr1 [0, 0, 0, 0, 0, 0, 0, 1]) = .ok (mkData [0, 0, 0, 0, 0, 0, 0, 1]) :=
    hConstruct_arr1 (by simp)
  have hcomb := combineH_ok (shrinkH .e) (N := 8) (by norm_num)
    [mkData [0, 0, 0, 0, 0, 0, 0, 1], mkData [0, 0, 0, 0, 0, 0, 0, 1]] [mkData [0, 0, 0, 0, 0, 0, 0, 1]]
    (by simp) (fun _ => ls) (fun _ => Real.log 6 - 7 / 8 * Real.log 5) (by
      intro d hd
      have : d = mkData [0, 0, 0, 0, 0, 0, 0, 1] := by simpa using hd
      rw [this]
      exact ⟨h1, h2, h3⟩)
  have hinit : miInit [[0, 0, 0, 0, 0, 0, 0, 1], [0, 0, 0, 0, 0, 0, 0, (1:Int)]] (some 0) =
      .ok [[0, 0, 0, 0, 0, 0, 0, 1], [0, 0, 0, 0, 0, 0, 0, 1]] := by simp [miInit]
  refine ⟨Real.log 6 - 5 / 6 * Real.log 5, Real.log 6 - 5 / 6 * Real.log 5,
    Real.log 6 - 7 / 8 * Real.log 5, ?_, ?_, ?_, ?_⟩
  · rw [HEst.entropy_arr1 _ (by simp)]; exact shrink_global_witness _ rfl
  · simp only [HEst.entropy, hc, bind, Except.bind]; exact shrink_global_witness _ rfl
  · simp only [genericMI, hinit, bind, Except.bind, List.mapM_cons, List.mapM_nil, hc, hc1, pure, Except.pure]
    rw [hcomb]
    congr 1
    simp
  · have : 0 < Real.log 5 := Real.log_pos (by norm_num)
    intro h
    linarith

example : grassbergerH (.num 2) = millerMadowH (.num 2) ∨ grassbergerH (.num 2) = grassbergerH (.num 2) ∨
    grassbergerH (.num 2) = zhangH (.num 2) := Or.inr (Or.inl rfl)

/-! ## C35 Zhang and Bonachela -/

/-- **C35** The masked, vectorised Zhang estimate is the published double sum, non-negative, and 0 for a
constant sample. -/
theorem C35_zhang (xs : List Int) (h : xs ≠ []) (b : Base) (hb : b.Std) :
    (zhangH b).entropy (.arr1 xs) = .ok (zhang xs / b.ln) ∧ 0 ≤ zhang xs / b.ln ∧
    ((∀ a ∈ xs, ∀ c ∈ xs, a = c) → (zhangH b).entropy (.arr1 xs) = .ok 0) := by
  have hv : (zhangH b).entropy (.arr1 xs) = .ok (zhang xs / b.ln) :=
    (HEst.entropy_arr1 _ h).trans (zhangSimple_ok xs hb.valid)
  refine ⟨hv, div_nonneg ?_ hb.ln_pos.le, fun hc => ?_⟩
  · rw [zhang_eq]
    exact Finset.sum_nonneg fun a _ => mul_nonneg (freq_nonneg xs a) (zhangInner_nonneg _ _)
  · rw [hv, zhang_eq]
    congr 1
    have : ∑ a ∈ xs.toFinset, freq xs a * zhangInner xs.length (cnt xs a) = 0 := by
      refine Finset.sum_eq_zero fun a ha => ?_
      have ha := List.mem_toFinset.1 ha
      have : cnt xs a = xs.length := by
        unfold cnt
        rw [List.countP_eq_length]
        intro c hcm
        simpa using hc c hcm a ha
      rw [this, zhangInner_self, mul_zero]
    rw [this, zero_div]

example := C35_zhang [5, 7, 5] (by decide) (.num 2) (by norm_num [Base.Std])

/-- **C35** The masked, vectorised Bonachela estimate is the published double sum and non-negative. -/
theorem C35_bonachela (xs : List Int) (h : xs ≠ []) (b : Base) (hb : b.Std) :
    (bonachelaH b).entropy (.arr1 xs) = .ok (bonachela xs / b.ln) ∧ 0 ≤ bonachela xs / b.ln :=
  ⟨(HEst.entropy_arr1 _ h).trans (bonachelaSimple_ok xs hb.valid),
    div_nonneg (bonachela_nonneg xs) hb.ln_pos.le⟩

/-- non-trivial case: Zhang of `0,1` is `1` (nats) while the plug-in value is `log 2` -/
example : zhang [0, (1 : Int)] = 1 := by
  have h1 : [0, (1 : Int)].toFinset = {0, 1} := by decide
  have h2 : cnt [0, (1 : Int)] 0 = 1 := by decide
  have h3 : cnt [0, (1 : Int)] 1 = 1 := by decide
  rw [zhang, h1, Finset.sum_pair (by decide), freq, freq, h2, h3]
  norm_num

end Verif
