import Verif.Lemmas.Divergence
import Verif.Props.Bias2

/-! # C36 – C37: cross-entropy, Kullback–Leibler and Jensen–Shannon divergence

`kld c b p q` is `kld(p, q, approach=c, base=b)`, `jsdDiscrete c b data` is
`jsd(*data, approach=c, base=b)`, `c.globalVal b [p, q]` is `cross_entropy(p, q, approach=c, base=b)`.
-/

namespace Verif

open Spec

/-! ## C36 Cross-entropy and Kullback–Leibler divergence -/

/-- **C36** The discrete cross-entropy of two samples is `−Σ p(a) log_b q(a)` over the symbols that occur
in both. -/
theorem C36_cross_entropy_value (xs ys : List Int) (hx : xs ≠ []) (hy : ys ≠ []) (b : Base)
    (hb : b.Valid) :
    DClass.discrete.globalVal b [.arr1 xs, .arr1 ys] = .ok (crossEntropy xs ys / b.ln) := by
  simp only [DClass.globalVal, discreteHInit_pair hx hy, bind, Except.bind, entropyDispatch,
    DClass.cross]
  exact discreteCross_ok xs ys hb

/-- **C36** The same of the functional form with two data, `entropy(x, y, approach="discrete")`. -/
theorem C36_two_data (xs ys : List Int) (hx : xs ≠ []) (hy : ys ≠ []) (b : Base) (hb : b.Valid) :
    discreteEntropy [.arr1 xs, .arr1 ys] b = .ok (crossEntropy xs ys / b.ln) :=
  C36_cross_entropy_value xs ys hx hy b hb

example := C36_cross_entropy_value [5, 7, 5] [7, 7, 9] (by decide) (by decide) (.num 2) (by norm_num [Base.Valid])

theorem globalVal_discrete_one {xs : List Int} (hx : xs ≠ []) {b : Base} (hb : b.Valid) :
    DClass.discrete.globalVal b [.arr1 xs] = .ok (entropy xs / b.ln) := by
  simp only [DClass.globalVal, discreteHInit_arr1 hx, bind, Except.bind, entropyDispatch,
    DClass.simple]
  exact discreteSimple_ok hb

/-- the divergence in general: cross-entropy over the common support minus entropy -/
theorem kld_discrete_general {xs ys : List Int} (hx : xs ≠ []) (hy : ys ≠ []) {b : Base}
    (hb : b.Valid) :
    kld .discrete b (.arr1 xs) (.arr1 ys) = .ok ((crossEntropy xs ys - entropy xs) / b.ln) := by
  simp only [kld, C36_cross_entropy_value xs ys hx hy b hb, globalVal_discrete_one hx hb, bind,
    Except.bind, pure, Except.pure]
  rw [sub_div]

/-- **C36** When every symbol of the first sample occurs in the second, the divergence is the textbook
`Σ p log (p/q)`, it is non-negative, and it vanishes exactly for equal distributions. -/
theorem C36_kld_of_included_support (xs ys : List Int) (hx : xs ≠ []) (h : ∀ a ∈ xs, a ∈ ys)
    (b : Base) (hb : b.Std) :
    ∃ v, kld .discrete b (.arr1 xs) (.arr1 ys) = .ok v ∧ v = kl xs ys / b.ln ∧ 0 ≤ v ∧
      (v = 0 ↔ SameDist xs ys) := by
  have hy : ys ≠ [] := by
    obtain ⟨a, ha⟩ := List.exists_mem_of_ne_nil _ hx
    exact List.ne_nil_of_mem (h a ha)
  refine ⟨kl xs ys / b.ln, ?_, rfl, div_nonneg (kl_nonneg h hx) hb.ln_pos.le, ?_⟩
  · rw [kld_discrete_general hx hy hb.valid, cross_sub_entropy xs ys h]
  · rw [div_eq_zero_iff, or_iff_left hb.ln_pos.ne']
    exact kl_eq_zero_iff h hx

example := C36_kld_of_included_support [5, 7, 5] [5, 7, 7] (by decide) (by decide) (.num 2) (by norm_num [Base.Std])

/-- **C36** The divergence of a sample from any reordering of itself is zero, for the plug-in and for the
Miller–Madow estimator. -/
theorem C36_kld_self (xs ys : List Int) (hx : xs ≠ []) (hp : xs.Perm ys) (b : Base) (hb : b.Valid) :
    kld .discrete b (.arr1 xs) (.arr1 ys) = .ok 0 ∧
    kld .millerMadow b (.arr1 xs) (.arr1 ys) = .ok 0 := by
  have hy : ys ≠ [] := by rintro rfl; exact hx hp.eq_nil
  have hs : ∀ a, freq ys a = freq xs a := fun a => by
    rw [freq, freq, cnt_perm hp, hp.length_eq]
  have hk : crossEntropy xs ys - entropy xs = 0 := by
    rw [cross_sub_entropy xs ys (fun a ha => hp.mem_iff.1 ha),
      kl_eq_zero_iff (fun a ha => hp.mem_iff.1 ha) hx]
    exact fun a => (hs a).symm
  constructor
  · rw [kld_discrete_general hx hy hb, hk, zero_div]
  · have hne : xs.toFinset ∩ ys.toFinset ≠ ∅ := by
      obtain ⟨a, ha⟩ := List.exists_mem_of_ne_nil _ hx
      intro h0
      have : a ∈ xs.toFinset ∩ ys.toFinset := by simp [ha, hp.mem_iff.1 ha]
      rw [h0] at this; simp at this
    have hcard : ys.toFinset.card = xs.toFinset.card := by
      congr 1; ext a; simp [hp.mem_iff]
    have e1 : DClass.millerMadow.globalVal b [.arr1 xs, .arr1 ys]
        = mmCross b (mkData xs) (mkData ys) := by
      simp only [DClass.globalVal, discreteHInit_pair hx hy, bind, Except.bind, entropyDispatch,
        DClass.cross]
    have e2 : DClass.millerMadow.globalVal b [.arr1 xs] = mmSimple b (mkData xs) := by
      simp only [DClass.globalVal, discreteHInit_arr1 hx, bind, Except.bind, entropyDispatch,
        DClass.simple]
    have e3 := mmCross_ok xs ys hb hne
    rw [hcard, ← hp.length_eq] at e3
    rw [kld, e1, e2, e3, mmSimple_ok xs hb]
    simp only [bind, Except.bind, pure, Except.pure]
    congr 1
    have e4 : crossEntropy xs ys = entropy xs := by linarith
    have hN := length_pos_real hx
    rw [e4, millerMadow]
    have := hb.ln_ne
    field_simp
    ring

example := C36_kld_self [5, 7, 5] [7, 5, 5] (by decide) (by decide) (.num 2) (by norm_num [Base.Valid])

/-- **C36** Without any common symbol the cross-entropy is reported as 0, so the divergence is *minus*
the entropy of the first sample. -/
theorem C36_disjoint_supports (xs ys : List Int) (hx : xs ≠ []) (hy : ys ≠ [])
    (h : ∀ a ∈ xs, a ∉ ys) (b : Base) (hb : b.Valid) :
    DClass.discrete.globalVal b [.arr1 xs, .arr1 ys] = .ok 0 ∧
    kld .discrete b (.arr1 xs) (.arr1 ys) = .ok (- entropy xs / b.ln) := by
  have e : xs.toFinset ∩ ys.toFinset = ∅ := by
    rw [Finset.eq_empty_iff_forall_notMem]
    intro a ha
    simp only [Finset.mem_inter, List.mem_toFinset] at ha
    exact h a ha.1 ha.2
  have e2 : crossEntropy xs ys = 0 := by simp [crossEntropy, e]
  constructor
  · rw [C36_cross_entropy_value xs ys hx hy b hb, e2, zero_div]
  · rw [kld_discrete_general hx hy hb, e2, zero_sub]

example := C36_disjoint_supports [5, 7, 5] [1, 2] (by decide) (by decide) (by decide) (.num 2) (by norm_num [Base.Valid])

/-- **C36** (negative) Non-negativity fails without inclusion of supports: a two-symbol sample against a
sample of other symbols has divergence `−log 2`. -/
theorem C36_kld_can_be_negative :
    ∃ v, kld .discrete .e (.arr1 [0, 1]) (.arr1 [2, 3]) = .ok v ∧ v < 0 := by
  refine ⟨- Real.log 2, ?_, by have := Real.log_pos (by norm_num : (1:ℝ) < 2); linarith⟩
  have h1 := (C36_disjoint_supports [0, 1] [2, 3] (by simp) (by simp) (by decide) .e trivial).2
  rw [h1]
  have h2 : entropy [(0:Int), 1] = Real.log 2 := by
    have := (entropy_eq_log_card_iff [(0:Int), 1] (by simp)).2 (by decide +kernel)
    rw [this]; norm_num
  rw [h2]; simp [Base.ln]

/-- **C36** The estimators whose corrections do not extend to two samples refuse to compute a
cross-entropy or a divergence, whatever the data. -/
theorem C36_no_cross_entropy (c : DClass) (hc : c = .grassberger ∨ c = .chaoShen ∨ c = .chaoWangJost ∨
    c = .shrink ∨ c = .zhang ∨ c = .bonachela ∨ ∃ k, c = .ansb k) (xs ys : List Int) (hx : xs ≠ [])
    (hy : ys ≠ []) (b : Base) :
    c.globalVal b [.arr1 xs, .arr1 ys] = .error .theoreticalInconsistency ∧
    kld c b (.arr1 xs) (.arr1 ys) = .error .theoreticalInconsistency := by
  have h1 : c.globalVal b [.arr1 xs, .arr1 ys] = .error .theoreticalInconsistency := by
    rcases hc with rfl | rfl | rfl | rfl | rfl | rfl | ⟨k, rfl⟩ <;>
      simp only [DClass.globalVal, discreteHInit_pair hx hy, bind, Except.bind, entropyDispatch,
        DClass.cross]
  exact ⟨h1, by simp only [kld, h1, bind, Except.bind]⟩

example := C36_no_cross_entropy .zhang (by simp) [5, 7, 5] [1, 2] (by decide) (by decide) .e

/-- **C36** For the Bayesian estimator with the observed support sizes and a numeric concentration
`α ≥ 0` the divergence is non-negative when the first support is included in the second. -/
theorem C36_bayes_kld_nonneg (xs ys : List Int) (hx : xs ≠ []) (h : ∀ a ∈ xs, a ∈ ys) (α : ℝ)
    (hα : 0 ≤ α) (b : Base) (hb : b.Std) :
    ∃ v, kld (.bayes (.num α) none) b (.arr1 xs) (.arr1 ys) = .ok v ∧ 0 ≤ v := by
  have hy : ys ≠ [] := by
    obtain ⟨a, ha⟩ := List.exists_mem_of_ne_nil _ hx
    exact List.ne_nil_of_mem (h a ha)
  set P := bayesProb xs xs.toFinset.card α with hP
  set Q := bayesProb ys ys.toFinset.card α with hQ
  have ep : bayesProbs (.num α) none (mkData xs) = .ok ((npUnique xs).map P) := by
    rw [bayesProbs_eq hx (.num α) none rfl hα, ← bayesP_spec]; rfl
  have eq' : bayesProbs (.num α) none (mkData ys) = .ok ((npUnique ys).map Q) := by
    rw [bayesProbs_eq hy (.num α) none rfl hα, ← bayesP_spec]; rfl
  have hpx := C33_bayes_observed_support xs hx (.num α) α hα (Or.inl rfl) b hb
  have hpy := C33_bayes_observed_support ys hy (.num α) α hα (Or.inl rfl) b hb
  have hinter : xs.toFinset ∩ ys.toFinset = xs.toFinset := by
    ext a; simpa using h a
  have hcross : bayesCross (.num α) none b (mkData xs) (mkData ys)
      = .ok (- (∑ a ∈ xs.toFinset, P a * Real.log (Q a)) / b.ln) := by
    unfold bayesCross
    rw [ep, eq']
    simp only [bind, Except.bind, mkData_uniq]
    have ht := cross_terms xs ys P Q hb.valid (fun a ha => hpy.1 a ha)
    have h0 : ¬ (commonSupport (npUnique xs) (npUnique ys)).length = 0 := by
      rw [common_length, hinter]
      simpa using hx
    simp only [bind, Except.bind, pure, Except.pure] at ht
    simp only [h0, if_false, ht, pure, Except.pure]
    have := common_sum xs ys (fun a => P a * (Real.log (Q a) / b.ln))
    rw [hinter] at this
    rw [this, neg_div, Finset.sum_div]
    congr 2
    exact Finset.sum_congr rfl fun a _ => by ring
  have hsimple : bayesSimple (.num α) none b (mkData xs)
      = .ok (bayes xs xs.toFinset.card α / b.ln) := bayesSimple_ok hx (.num α) none rfl hα hb.valid
  refine ⟨(∑ a ∈ xs.toFinset, P a * Real.log (P a / Q a)) / b.ln, ?_, div_nonneg ?_ hb.ln_pos.le⟩
  · have e1 : (DClass.bayes (.num α) none).globalVal b [.arr1 xs, .arr1 ys]
        = bayesCross (.num α) none b (mkData xs) (mkData ys) := by
      simp only [DClass.globalVal, discreteHInit_pair hx hy, bind, Except.bind, entropyDispatch,
        DClass.cross]
    have e2 : (DClass.bayes (.num α) none).globalVal b [.arr1 xs]
        = bayesSimple (.num α) none b (mkData xs) := by
      simp only [DClass.globalVal, discreteHInit_arr1 hx, bind, Except.bind, entropyDispatch,
        DClass.simple]
    rw [kld, e1, e2, hcross, hsimple]
    simp only [bind, Except.bind, pure, Except.pure]
    rw [← sub_div, bayes, neg_sub_neg, ← Finset.sum_sub_distrib]
    congr 2
    refine Finset.sum_congr rfl fun a ha => ?_
    have ha' : a ∈ xs := by simpa using ha
    rw [Real.log_div (hpx.1 a ha').ne' (hpy.1 a (h a ha')).ne']
    ring
  · refine gibbs _ _ _ (fun a ha => (hpx.1 a (by simpa using ha)).le)
      (fun a ha => hpy.1 a (h a (by simpa using ha))) ?_
    rw [hpx.2.1, ← hpy.2.1]
    exact Finset.sum_le_sum_of_subset_of_nonneg (fun a ha => by simpa using h a (by simpa using ha))
      (fun a ha _ => (hpy.1 a (by simpa using ha)).le)

example := C36_bayes_kld_nonneg [5, 7, 5] [5, 7, 7, 9] (by decide) (by decide) 1 (by norm_num) (.num 2) (by norm_num [Base.Std])

/-- **C36** (negative) Two-dimensional data: every argument is recoded to integers on its own, so the
divergence compares code frequencies, not rows: two samples without a common row get divergence 0. -/
theorem C36_multivariate_rows_recoded_separately :
    (∀ r ∈ [[(0:Int), 0], [0, 1]], r ∉ [[(5:Int), 5], [6, 6]]) ∧
    kld .discrete .e (.arr2 [[0, 0], [0, 1]]) (.arr2 [[5, 5], [6, 6]]) = .ok 0 := by
  refine ⟨by decide, ?_⟩
  have u1 : npUnique [[(0:Int), 0], [0, 1]] = [[0, 0], [0, 1]] :=
    npUnique_eq (by decide) (by simp)
  have u2 : npUnique [[(5:Int), 5], [6, 6]] = [[5, 5], [6, 6]] :=
    npUnique_eq (by decide) (by simp)
  have r1 : reduceVar (.arr2 [[0, 0], [0, 1]]) = .ok [0, 1] := by
    simp only [reduceVar, reduceJointSpace, npInverse, List.map_cons, List.map_nil, npPos, u1]; decide +kernel
  have r2 : reduceVar (.arr2 [[5, 5], [6, 6]]) = .ok [0, 1] := by
    simp only [reduceVar, reduceJointSpace, npInverse, List.map_cons, List.map_nil, npPos, u2]; decide +kernel
  have i2 : discreteHInit [.arr2 [[0, 0], [0, 1]], .arr2 [[5, 5], [6, 6]]]
      = .ok [mkData [0, 1], mkData [0, 1]] := by
    simp only [discreteHInit, entropyInit, bind, Except.bind, List.mapM_cons, List.mapM_nil, r1, r2,
      fromData_ok (show ([0, 1] : List Int) ≠ [] by simp), pure, Except.pure]
  have i1 : discreteHInit [.arr2 [[0, 0], [0, 1]]] = .ok [mkData [0, 1]] := by
    simp only [discreteHInit, entropyInit, bind, Except.bind, List.mapM_cons, List.mapM_nil, r1,
      fromData_ok (show ([0, 1] : List Int) ≠ [] by simp), pure, Except.pure]
  have := (C36_kld_self [0, 1] [0, 1] (by simp) (.refl _) .e trivial).1
  rw [← this]
  simp only [kld, DClass.globalVal, i1, i2, discreteHInit_pair (show ([0, 1] : List Int) ≠ [] by simp)
    (show ([0, 1] : List Int) ≠ [] by simp), discreteHInit_arr1 (show ([0, 1] : List Int) ≠ [] by simp)]

example : ∀ a ∈ [(0:Int), 1, 1], a ∈ [(0:Int), 1, 2] := by decide
example : ¬ SameDist [(0:Int), 1, 1] [(0:Int), 1, 2] := by
  intro h
  have := h 2
  simp [freq, cnt] at this

/-! ## C37 Jensen–Shannon divergence -/

/-- the distribution of a sample under an estimator's probabilities -/
def Dst.ofProb (xs : List Int) (P : Int → ℝ) (h : ∀ a ∈ xs, 0 < P a) : Dst Int where
  keys := npUnique xs
  p := P
  nodup := npUnique_nodup xs
  pos := fun a ha => h a (mem_npUnique.1 ha)

theorem jsd_class_ok (c : DClass) (hc : c.jsdSupported = true) {b : Base} (hb : b.Valid)
    (xss : List (List Int)) (hne : xss ≠ []) (hx : ∀ xs ∈ xss, xs ≠ [])
    (P : List Int → Int → ℝ) (hP : ∀ xs a, a ∈ xs → 0 < P xs a)
    (hs : ∀ xs ∈ xss, c.simple b (mkData xs) = .ok
      ((- ∑ a ∈ xs.toFinset, P xs a * Real.log (P xs a)) / b.ln))
    (hd : ∀ xs ∈ xss, c.dist (mkData xs) = .ok ((npUnique xs).zip ((npUnique xs).map (P xs)))) :
    jsdDiscrete c b (xss.map .arr1)
      = .ok (jsdD (xss.map (fun xs => Dst.ofProb xs (P xs) (hP xs))) / b.ln) := by
  have h1 : (xss.map EInput.arr1).all EInput.isArrayLike = true := by
    simp [EInput.isArrayLike]
  have h2 : (xss.map EInput.arr1).mapM (fun v => discreteHInit [v])
      = .ok (xss.map (fun xs => [mkData xs])) := by
    rw [mapM_map']
    exact mapM_ok _ fun xs h => discreteHInit_arr1 (hx xs h)
  have h3 : (xss.map (fun xs => [mkData xs])).mapM
      (fun d => entropyDispatch (c.simple b) (c.cross b) d)
      = .ok (xss.map (fun xs => (Dst.ofProb xs (P xs) (hP xs)).ent / b.ln)) := by
    rw [mapM_map']
    refine mapM_ok _ fun xs h => ?_
    simp only [entropyDispatch]
    rw [hs xs h]
    congr 2
    rw [Dst.ent, ← List.sum_toFinset _ (Dst.nodup _)]
    simp only [Dst.ofProb, npUnique_toFinset]
  have h4 : (xss.map (fun xs => [mkData xs])).mapM c.distOf
      = .ok (xss.map (fun xs => (Dst.ofProb xs (P xs) (hP xs)).dict)) := by
    rw [mapM_map']
    refine mapM_ok _ fun xs h => ?_
    simp only [DClass.distOf]
    rw [hd xs h, zip_map_self]; rfl
  unfold jsdDiscrete
  simp only [h1, hc, not_true_eq_false, if_false, h2, h3, h4, bind, Except.bind, List.length_map]
  have hl : ¬ xss.length = 0 := by simpa using hne
  rw [if_neg hl, List.zip_map']
  have := jsdCore_ok (xss.map (fun xs => Dst.ofProb xs (P xs) (hP xs))) (by simpa using hne) hb
  rw [List.map_map] at this
  exact this

theorem mixD_spec (xss : List (List Int)) (a : Int) :
    mixD (xss.map (fun xs => Dst.ofProb xs (freq xs) (fun _ h => freq_pos h))) a
      = mixture xss a := by
  rw [mixD, mixture, List.map_map, List.length_map]
  congr 2
  refine List.map_congr_left fun xs _ => ?_
  simp only [Function.comp, Dst.ext, Dst.ofProb, mem_npUnique]
  split_ifs with h
  · rfl
  · exact (freq_eq_zero h).symm

theorem jsdD_spec (xss : List (List Int)) :
    jsdD (xss.map (fun xs => Dst.ofProb xs (freq xs) (fun _ h => freq_pos h))) = jsd xss := by
  rw [jsdD, jsd, List.map_map, List.length_map]
  congr 2
  refine List.map_congr_left fun xs _ => ?_
  simp only [Function.comp, Dst.ofProb, npUnique_toFinset]
  refine Finset.sum_congr rfl fun a _ => ?_
  rw [← mixD_spec]; rfl

theorem jsdDiscrete_plugin (xss : List (List Int)) (hne : xss ≠ []) (hx : ∀ xs ∈ xss, xs ≠ [])
    {b : Base} (hb : b.Valid) :
    jsdDiscrete .discrete b (xss.map .arr1)
      = .ok (jsdD (xss.map (fun xs => Dst.ofProb xs (freq xs) (fun _ h => freq_pos h))) / b.ln) :=
  jsd_class_ok .discrete rfl hb xss hne hx freq (fun _ _ h => freq_pos h)
    (fun xs _ => discreteSimple_ok hb)
    (fun xs _ => by
      simp only [DClass.dist, DiscreteData.distributionDict, mkData_probabilities, mkData_uniq])

/-- **C37** The discrete Jensen–Shannon divergence of any number of samples is the average textbook
divergence from the equal-weight mixture, in units of the base. -/
theorem C37_jsd_value (xss : List (List Int)) (hne : xss ≠ []) (hx : ∀ xs ∈ xss, xs ≠ []) (b : Base)
    (hb : b.Valid) : jsdDiscrete .discrete b (xss.map .arr1) = .ok (jsd xss / b.ln) := by
  rw [jsdDiscrete_plugin xss hne hx hb, jsdD_spec]

example := C37_jsd_value [[5, 7, 5], [7, 9]] (by decide) (by decide) (.num 2) (by norm_num [Base.Valid])

/-- **C37** For `n` samples it lies between `0` and `log_b n`, and is `0` exactly when all samples have
the same distribution. -/
theorem C37_jsd_bounds (xss : List (List Int)) (hne : xss ≠ []) (hx : ∀ xs ∈ xss, xs ≠ []) (b : Base)
    (hb : b.Std) :
    ∃ v, jsdDiscrete .discrete b (xss.map .arr1) = .ok v ∧ 0 ≤ v ∧
      v ≤ Real.log xss.length / b.ln ∧ (v = 0 ↔ ∀ xs ∈ xss, ∀ ys ∈ xss, SameDist xs ys) := by
  refine ⟨_, jsdDiscrete_plugin xss hne hx hb.valid, ?_, ?_, ?_⟩
  · exact div_nonneg (jsdD_nonneg _ (by simpa using hne)) hb.ln_pos.le
  · refine div_le_div_of_nonneg_right ?_ hb.ln_pos.le
    have := jsdD_le (xss.map (fun xs => Dst.ofProb xs (freq xs) (fun _ h => freq_pos h)))
      (by simpa using hne) (by
        intro D hD
        obtain ⟨xs, hxs, rfl⟩ := List.mem_map.1 hD
        rw [← List.sum_toFinset _ (Dst.nodup _)]
        simp only [Dst.ofProb, npUnique_toFinset]
        rw [sum_freq (hx xs hxs)])
    simpa using this
  · rw [div_eq_zero_iff, or_iff_left hb.ln_pos.ne', jsdD_eq_zero_iff _ (by simpa using hne)]
    have he : ∀ xs : List Int, ∀ a, (Dst.ofProb xs (freq xs) (fun _ h => freq_pos h)).ext a
        = freq xs a := by
      intro xs a
      simp only [Dst.ext, Dst.ofProb, mem_npUnique]
      split_ifs with h
      · rfl
      · exact (freq_eq_zero h).symm
    simp only [List.mem_map, forall_exists_index, and_imp, forall_apply_eq_imp_iff₂, he]
    rfl

example := C37_jsd_bounds [[5, 7, 5], [7, 9]] (by decide) (by decide) (.num 2) (by norm_num [Base.Std])

/-- **C37** It does not depend on the order of the samples (plug-in, shrinkage and Bayes alike). -/
theorem C37_jsd_symmetric (xss yss : List (List Int)) (hp : xss.Perm yss)
    (hx : ∀ xs ∈ xss, xs ≠ []) (α : ℝ) (hα : 0 ≤ α) (b : Base) (hb : b.Valid) (c : DClass)
    (hc : c = .discrete ∨ c = .shrink ∨ c = .bayes (.num α) none) :
    jsdDiscrete c b (xss.map .arr1) = jsdDiscrete c b (yss.map .arr1) := by
  by_cases hne : xss = []
  · subst hne
    rw [hp.nil_eq]
  have hney : yss ≠ [] := by rintro rfl; exact hne hp.eq_nil
  have hy : ∀ xs ∈ yss, xs ≠ [] := fun xs h => hx xs (hp.mem_iff.2 h)
  have key : ∀ P : List Int → Int → ℝ, ∀ hP : (∀ xs a, a ∈ xs → 0 < P xs a),
      c.jsdSupported = true →
      (∀ xs, xs ≠ [] → c.simple b (mkData xs) = .ok
        ((- ∑ a ∈ xs.toFinset, P xs a * Real.log (P xs a)) / b.ln)) →
      (∀ xs, xs ≠ [] → c.dist (mkData xs) = .ok ((npUnique xs).zip ((npUnique xs).map (P xs)))) →
      jsdDiscrete c b (xss.map .arr1) = jsdDiscrete c b (yss.map .arr1) := by
    intro P hP hs h1 h2
    rw [jsd_class_ok c hs hb xss hne hx P hP (fun xs h => h1 xs (hx xs h)) (fun xs h => h2 xs (hx xs h)),
      jsd_class_ok c hs hb yss hney hy P hP (fun xs h => h1 xs (hy xs h)) (fun xs h => h2 xs (hy xs h)),
      jsdD_perm (hp.map _)]
  rcases hc with rfl | rfl | rfl
  · exact key freq (fun _ _ h => freq_pos h) rfl (fun xs _ => discreteSimple_ok hb) (fun xs _ => by
      simp only [DClass.dist, DiscreteData.distributionDict, mkData_probabilities, mkData_uniq])
  · refine key shrinkProb (fun xs a ha => ?_) rfl (fun xs h => ?_) (fun xs h => ?_)
    · exact (C32_shrinkage xs (List.ne_nil_of_mem ha) .e trivial).2.1 a ha
    · simp only [DClass.simple]
      rw [shrinkSimple_ok h hb, entropyOf_shrink h]; rfl
    · simp only [DClass.dist, mkData_uniq]
      rw [shrinkProbs_spec h]
  · refine key (fun xs => bayesProb xs xs.toFinset.card α) (fun xs a ha => ?_) rfl (fun xs h => ?_)
      (fun xs h => ?_)
    · exact (C33_bayes_observed_support xs (List.ne_nil_of_mem ha) (.num α) α hα (Or.inl rfl) .e trivial).1
        a ha
    · exact bayesSimple_ok h (.num α) none rfl hα hb
    · simp only [DClass.dist, mkData_uniq]
      rw [bayesProbs_eq h (.num α) none rfl hα, ← bayesP_spec]; rfl

example := C37_jsd_symmetric [[5, 7, 5], [7, 9]] [[7, 9], [5, 7, 5]] (by decide) (by decide) 1 (by norm_num) (.num 2)
  (by norm_num [Base.Valid]) .shrink (by simp)

/-- **C37** The bounds also hold for the shrinkage estimator and for the Bayesian estimator with the
observed support size and numeric `α ≥ 0`; identical samples have divergence 0. -/
theorem C37_jsd_shrink_bayes (xss : List (List Int)) (hne : xss ≠ []) (hx : ∀ xs ∈ xss, xs ≠ [])
    (α : ℝ) (hα : 0 ≤ α) (b : Base) (hb : b.Std) (c : DClass)
    (hc : c = .shrink ∨ c = .bayes (.num α) none) :
    ∃ v, jsdDiscrete c b (xss.map .arr1) = .ok v ∧ 0 ≤ v ∧ v ≤ Real.log xss.length / b.ln ∧
      ((∀ xs ∈ xss, ∀ ys ∈ xss, xs = ys) → v = 0) := by
  have key : ∀ P : List Int → Int → ℝ, ∀ hP : (∀ xs a, a ∈ xs → 0 < P xs a),
      (∀ xs, xs ≠ [] → ∑ a ∈ xs.toFinset, P xs a = 1) →
      c.jsdSupported = true →
      (∀ xs, xs ≠ [] → c.simple b (mkData xs) = .ok
        ((- ∑ a ∈ xs.toFinset, P xs a * Real.log (P xs a)) / b.ln)) →
      (∀ xs, xs ≠ [] → c.dist (mkData xs) = .ok ((npUnique xs).zip ((npUnique xs).map (P xs)))) →
      ∃ v, jsdDiscrete c b (xss.map .arr1) = .ok v ∧ 0 ≤ v ∧ v ≤ Real.log xss.length / b.ln ∧
      ((∀ xs ∈ xss, ∀ ys ∈ xss, xs = ys) → v = 0) := by
    intro P hP hsum hs h1 h2
    refine ⟨_, jsd_class_ok c hs hb.valid xss hne hx P hP (fun xs h => h1 xs (hx xs h))
      (fun xs h => h2 xs (hx xs h)), ?_, ?_, ?_⟩
    · exact div_nonneg (jsdD_nonneg _ (by simpa using hne)) hb.ln_pos.le
    · refine div_le_div_of_nonneg_right ?_ hb.ln_pos.le
      have := jsdD_le (xss.map (fun xs => Dst.ofProb xs (P xs) (hP xs)))
        (by simpa using hne) (by
          intro D hD
          obtain ⟨xs, hxs, rfl⟩ := List.mem_map.1 hD
          rw [← List.sum_toFinset _ (Dst.nodup _)]
          simp only [Dst.ofProb, npUnique_toFinset]
          rw [hsum xs (hx xs hxs)])
      simpa using this
    · intro h
      rw [div_eq_zero_iff]; left
      rw [jsdD_eq_zero_iff _ (by simpa using hne)]
      intro D hD D' hD' a
      obtain ⟨xs, hxs, rfl⟩ := List.mem_map.1 hD
      obtain ⟨ys, hys, rfl⟩ := List.mem_map.1 hD'
      have := h xs hxs ys hys
      subst this; rfl
  rcases hc with rfl | rfl
  · refine key shrinkProb (fun xs a ha => ?_) (fun xs h => ?_) rfl (fun xs h => ?_) (fun xs h => ?_)
    · exact (C32_shrinkage xs (List.ne_nil_of_mem ha) .e trivial).2.1 a ha
    · exact (C32_shrinkage xs h .e trivial).2.2.1
    · simp only [DClass.simple]
      rw [shrinkSimple_ok h hb.valid, entropyOf_shrink h]; rfl
    · simp only [DClass.dist, mkData_uniq]
      rw [shrinkProbs_spec h]
  · refine key (fun xs => bayesProb xs xs.toFinset.card α) (fun xs a ha => ?_) (fun xs h => ?_) rfl
      (fun xs h => ?_) (fun xs h => ?_)
    · exact (C33_bayes_observed_support xs (List.ne_nil_of_mem ha) (.num α) α hα (Or.inl rfl) .e trivial).1
        a ha
    · exact (C33_bayes_observed_support xs h (.num α) α hα (Or.inl rfl) .e trivial).2.1
    · exact bayesSimple_ok h (.num α) none rfl hα hb.valid
    · simp only [DClass.dist, mkData_uniq]
      rw [bayesProbs_eq h (.num α) none rfl hα, ← bayesP_spec]; rfl

example := C37_jsd_shrink_bayes [[5, 7, 5], [7, 9]] (by decide) (by decide) 1 (by norm_num) (.num 2)
  (by norm_num [Base.Std]) (.bayes (.num 1) none) (by simp)

/-- **C37** Tuples and non-array arguments, and every other discrete estimator, are a ValueError; no
data at all is a ZeroDivisionError. -/
theorem C37_jsd_rejects (c : DClass) (b : Base) (data : List EInput) :
    ((∃ v ∈ data, (∃ cols, v = .tup cols) ∨ v = .other) →
      jsdDiscrete c b data = .error .valueError) ∧
    ((c = .millerMadow ∨ c = .grassberger ∨ c = .chaoShen ∨ c = .chaoWangJost ∨ c = .zhang ∨
      c = .bonachela ∨ ∃ k, c = .ansb k) → jsdDiscrete c b data = .error .valueError) ∧
    jsdDiscrete .discrete b [] = .error .zeroDivisionError := by
  refine ⟨?_, ?_, ?_⟩
  · rintro ⟨v, hv, h⟩
    have : ¬ data.all EInput.isArrayLike = true := by
      rw [List.all_eq_true]
      intro hall
      have := hall v hv
      rcases h with ⟨cols, rfl⟩ | rfl <;> simp [EInput.isArrayLike] at this
    unfold jsdDiscrete
    rw [if_pos this]
  · intro h
    have : ¬ c.jsdSupported = true := by
      rcases h with rfl | rfl | rfl | rfl | rfl | rfl | ⟨k, rfl⟩ <;> simp [DClass.jsdSupported]
    unfold jsdDiscrete
    rw [if_pos this]
    split_ifs <;> rfl
  · rfl

example := And.intro ((C37_jsd_rejects .discrete .e [.arr1 [5, 7], .tup [[1], [2]]]).1 ⟨.tup [[1], [2]], by simp, .inl ⟨_, rfl⟩⟩)
  ((C37_jsd_rejects (.ansb none) .e [.arr1 [5, 7], .arr1 [5, 5]]).2.1 (by simp))

/-- **C37** (negative) As for cross-entropy, two-dimensional samples are recoded one by one: samples
without a common row get divergence 0. -/
theorem C37_multivariate_rows_recoded_separately :
    (∀ r ∈ [[(0:Int), 0], [0, 1]], r ∉ [[(5:Int), 5], [6, 6]]) ∧
    jsdDiscrete .discrete .e [.arr2 [[0, 0], [0, 1]], .arr2 [[5, 5], [6, 6]]] = .ok 0 := by
  refine ⟨by decide, ?_⟩
  have u1 : npUnique [[(0:Int), 0], [0, 1]] = [[0, 0], [0, 1]] :=
    npUnique_eq (by decide) (by simp)
  have u2 : npUnique [[(5:Int), 5], [6, 6]] = [[5, 5], [6, 6]] :=
    npUnique_eq (by decide) (by simp)
  have r1 : reduceVar (.arr2 [[0, 0], [0, 1]]) = .ok [0, 1] := by
    simp only [reduceVar, reduceJointSpace, npInverse, List.map_cons, List.map_nil, npPos, u1]; decide +kernel
  have r2 : reduceVar (.arr2 [[5, 5], [6, 6]]) = .ok [0, 1] := by
    simp only [reduceVar, reduceJointSpace, npInverse, List.map_cons, List.map_nil, npPos, u2]; decide +kernel
  have i1 : discreteHInit [.arr2 [[0, 0], [0, 1]]] = discreteHInit [.arr1 [0, 1]] := by
    simp only [discreteHInit, entropyInit, bind, Except.bind, List.mapM_cons, r1]; rfl
  have i2 : discreteHInit [.arr2 [[5, 5], [6, 6]]] = discreteHInit [.arr1 [0, 1]] := by
    simp only [discreteHInit, entropyInit, bind, Except.bind, List.mapM_cons, r2]; rfl
  obtain ⟨v, hv, _, _, h0⟩ := C37_jsd_bounds [[0, 1], [0, 1]] (by simp) (by simp) .e trivial
  have hz : v = 0 := h0.2 (by
    intro xs hxs ys hys a
    simp at hxs hys; rw [hxs, hys])
  rw [hz] at hv
  rw [← hv]
  simp only [jsdDiscrete, List.mapM_cons, List.mapM_nil, i1, i2, List.map_cons, List.map_nil]
  rfl

example : ¬ ∀ xs ∈ [[(0:Int), 1], [0, 0]], ∀ ys ∈ [[(0:Int), 1], [0, 0]], SameDist xs ys := by
  intro h
  have := h [0, 1] (by simp) [0, 0] (by simp) 1
  simp [freq, cnt] at this

end Verif
