import Verif.Props.Nsb2
import Mathlib.MeasureTheory.Integral.IntegralEqImproper

/-! # Property C67 continued: comparison with the published estimator -/

namespace Verif

open Set Topology Spec MeasureTheory

theorem digamma_strictMono {x y : ℝ} (hx : 0 < x) (hxy : x < y) : digamma x < digamma y := by
  have h := digamma_series hx (hx.trans hxy)
  have hpos : ∀ n : ℕ, 0 < 1 / ((n : ℝ) + x) - 1 / ((n : ℝ) + y) := fun n => by
    rw [sub_pos]
    exact one_div_lt_one_div_of_lt (by positivity) (by linarith)
  have := h.summable.tsum_pos (fun n => (hpos n).le) 0 (hpos 0)
  rw [h.tsum_eq] at this
  linarith

/-- a Dirichlet mean entropy with at least two cells is positive -/
theorem dirichletMean_pos {ι : Type} (s : Finset ι) (f : ι → ℝ) (hf : ∀ i ∈ s, 0 < f i) {i j : ι} (hi : i ∈ s) (hj : j ∈ s)
    (hij : i ≠ j) : 0 < digamma (∑ i ∈ s, f i + 1) - ∑ i ∈ s, f i / (∑ i ∈ s, f i) * digamma (f i + 1) := by
  classical
  set A := ∑ i ∈ s, f i with hA
  have hA0 : 0 < A := Finset.sum_pos hf ⟨i, hi⟩
  have hone : ∑ i ∈ s, f i / A = 1 := by rw [← Finset.sum_div, ← hA, div_self hA0.ne']
  have hlt : f i < A := by
    have h2 : ∑ t ∈ ({i, j} : Finset ι), f t ≤ A :=
      Finset.sum_le_sum_of_subset_of_nonneg (by intro t ht; simp at ht; rcases ht with rfl | rfl <;> assumption)
        fun t ht _ => (hf t ht).le
    rw [Finset.sum_pair hij] at h2
    linarith [hf j hj]
  have : ∑ i ∈ s, f i / A * digamma (f i + 1) < ∑ i ∈ s, f i / A * digamma (A + 1) := by
    refine Finset.sum_lt_sum (fun t ht => mul_le_mul_of_nonneg_left ?_ (by have := hf t ht; positivity)) ⟨i, hi, ?_⟩
    · have : f t ≤ A := Finset.single_le_sum (fun j hj => (hf j hj).le) ht
      exact digamma_mono (by have := hf t ht; linarith) (by linarith)
    · have := hf i hi
      exact mul_lt_mul_of_pos_left (digamma_strictMono (by linarith) (by linarith)) (by positivity)
  rw [← Finset.sum_mul, hone, one_mul] at this
  linarith

section
variable {α : Type} [DecidableEq α]

/-- the published posterior mean over `K` cells: between 0 (strictly) and `log K` -/
theorem publishedMean_bounds (xs : List α) (hx : xs ≠ []) {K : ℕ} (hK : 2 ≤ K) (hc : xs.toFinset.card ≤ K) {β : ℝ} (hβ : 0 < β) :
    0 < Nsb.publishedMean xs K β ∧ Nsb.publishedMean xs K β ≤ Real.log K := by
  classical
  set m := xs.toFinset.card with hm
  let s : Finset (α ⊕ ℕ) := xs.toFinset.disjSum (Finset.range (K - m))
  let f : α ⊕ ℕ → ℝ := Sum.elim (fun a => (cnt xs a : ℝ) + β) (fun _ => β)
  have hf : ∀ i ∈ s, 0 < f i := by
    rintro (a | j) _
    · show 0 < (cnt xs a : ℝ) + β
      positivity
    · exact hβ
  have hcard : s.card = K := by
    rw [Finset.card_disjSum, Finset.card_range]; omega
  have hcast : ((K - m : ℕ) : ℝ) = (K : ℝ) - m := by push_cast [Nat.cast_sub hc]; ring
  have hsum : ∑ i ∈ s, f i = xs.length + K * β := by
    rw [Finset.sum_disjSum]
    show ∑ a ∈ xs.toFinset, ((cnt xs a : ℝ) + β) + ∑ _j ∈ Finset.range (K - m), β = _
    rw [Finset.sum_add_distrib, sum_count, Finset.sum_const, Finset.sum_const, nsmul_eq_mul, nsmul_eq_mul, Finset.card_range,
      hcast]
    ring
  have hsum2 : ∑ i ∈ s, f i / (xs.length + K * β) * digamma (f i + 1) =
      (∑ a ∈ xs.toFinset, ((cnt xs a : ℝ) + β) / (xs.length + K * β) * digamma ((cnt xs a : ℝ) + β + 1)) +
        (K - m) * (β / (xs.length + K * β) * digamma (β + 1)) := by
    rw [Finset.sum_disjSum]
    show ∑ a ∈ xs.toFinset, ((cnt xs a : ℝ) + β) / (xs.length + K * β) * digamma ((cnt xs a : ℝ) + β + 1) +
      ∑ _j ∈ Finset.range (K - m), β / (xs.length + K * β) * digamma (β + 1) = _
    rw [Finset.sum_const, nsmul_eq_mul, Finset.card_range, hcast]
  have hs1 : 1 < s.card := by rw [hcard]; omega
  obtain ⟨i, hi, j, hj, hij⟩ := Finset.one_lt_card.1 hs1
  have h1 := dirichletMean_pos s f hf hi hj hij
  have h2 := (dirichletMean_bounds s ⟨i, hi⟩ f hf).2
  rw [hsum, hsum2] at h1 h2
  rw [hcard] at h2
  exact ⟨h1, h2⟩

/-- `dξ` is integrable over all concentrations -/
theorem dxi_integrable {K : ℕ} (hK : 2 ≤ K) : IntegrableOn (fun β => nsbDxi β K) (Ioi 0) := by
  have hK0 : (0:ℝ) < K := by positivity
  have hd : ∀ x ∈ Ici (0:ℝ), HasDerivAt (Nsb.priorMean K) (nsbDxi x K) x := fun x hx => priorMean_hasDeriv hK0 hx
  have hpos : ∀ x ∈ Ici (0:ℝ), 0 ≤ nsbDxi x K := fun x hx => (sub_pos.2 (trigamma_scale hK hx)).le
  have hmono : MonotoneOn (Nsb.priorMean K) (Ici 0) := by
    refine monotoneOn_of_deriv_nonneg (convex_Ici 0) (fun x hx => (hd x hx).continuousAt.continuousWithinAt)
      (fun x hx => ?_) fun x hx => ?_
    · rw [interior_Ici] at hx
      exact (hd x (mem_Ici.2 (mem_Ioi.1 hx).le)).differentiableAt.differentiableWithinAt
    · rw [interior_Ici] at hx
      rw [(hd x (mem_Ici.2 (mem_Ioi.1 hx).le)).deriv]
      exact hpos x (mem_Ici.2 (mem_Ioi.1 hx).le)
  have hbd : ∀ x ∈ Ici (0:ℝ), Nsb.priorMean K x ≤ Real.log K := by
    intro x (hx : 0 ≤ x)
    rcases hx.eq_or_lt with rfl | hx
    · simp only [Nsb.priorMean, mul_zero, sub_self]
      exact (log_nat_pos hK).le
    · have h1 : (1:ℝ) ≤ K := by exact_mod_cast (by omega : 1 ≤ K)
      have := digamma_le_log hx (by nlinarith : x ≤ K * x)
      rw [Real.log_mul hK0.ne' hx.ne'] at this
      have e : Nsb.priorMean K x = digamma (K * x + 1) - digamma (x + 1) := rfl
      rw [e]; linarith
  let g : ℝ → ℝ := fun x => Nsb.priorMean K (max x 0)
  have hg : Monotone g := fun x y hxy => hmono (mem_Ici.2 (le_max_right _ _)) (mem_Ici.2 (le_max_right _ _)) (max_le_max_right 0 hxy)
  have hgb : BddAbove (range g) := ⟨Real.log K, by rintro _ ⟨x, rfl⟩; exact hbd _ (mem_Ici.2 (le_max_right _ _))⟩
  have ht : Filter.Tendsto (Nsb.priorMean K) Filter.atTop (𝓝 (⨆ x, g x)) := by
    refine (tendsto_atTop_ciSup hg hgb).congr' ?_
    filter_upwards [Filter.eventually_ge_atTop (0:ℝ)] with x hx
    show Nsb.priorMean K (max x 0) = _
    rw [max_eq_left hx]
  exact integrableOn_Ioi_deriv_of_nonneg (hd 0 self_mem_Ici).continuousAt.continuousWithinAt
    (fun x hx => hd x (mem_Ioi.1 hx).le) (fun x hx => hpos x (mem_Ioi.1 hx).le) ht

theorem rising_le {β γ : ℝ} (h0 : 0 ≤ β) (h : β ≤ γ) (n : ℕ) : Nsb.rising β n ≤ Nsb.rising γ n :=
  Finset.prod_le_prod (fun j _ => by positivity) fun j _ => by linarith

/-- product of the rising factorials of the counts is at most the rising factorial of the length -/
theorem prod_rising_le {ι : Type} (s : Finset ι) (c : ι → ℕ) {β : ℝ} (hβ : 0 ≤ β) :
    ∏ a ∈ s, Nsb.rising β (c a) ≤ Nsb.rising (s.card * β) (∑ a ∈ s, c a) := by
  classical
  have hsplit : ∀ (γ : ℝ) (m n : ℕ), Nsb.rising γ (m + n) = Nsb.rising γ m * Nsb.rising (γ + m) n := by
    intro γ m n
    rw [Nsb.rising, Finset.prod_range_add, Nsb.rising, Nsb.rising]
    congr 1
    refine Finset.prod_congr rfl fun j _ => ?_
    push_cast; ring
  induction s using Finset.induction_on with
  | empty => simp [Nsb.rising]
  | insert a s ha ih =>
    rw [Finset.prod_insert ha, Finset.sum_insert ha, Finset.card_insert_of_notMem ha, hsplit]
    have h1 : Nsb.rising β (c a) ≤ Nsb.rising (((s.card + 1 : ℕ) : ℝ) * β) (c a) :=
      rising_le hβ (by push_cast; nlinarith [(Nat.cast_nonneg s.card : (0:ℝ) ≤ s.card)]) _
    have h2 : Nsb.rising (s.card * β) (∑ x ∈ s, c x) ≤
        Nsb.rising (((s.card + 1 : ℕ) : ℝ) * β + (c a : ℝ)) (∑ x ∈ s, c x) := by
      refine rising_le (by positivity) ?_ _
      push_cast
      have : (0:ℝ) ≤ c a := Nat.cast_nonneg _
      nlinarith
    refine mul_le_mul h1 (ih.trans h2) (Finset.prod_nonneg fun x _ => ?_) ?_
    · exact Finset.prod_nonneg fun j _ => by positivity
    · exact Finset.prod_nonneg fun j _ => by positivity

/-- the published weight is positive and integrable, also times the published posterior mean -/
theorem publishedWeight_facts (xs : List α) (hx : xs ≠ []) {K : ℕ} (hK : 2 ≤ K) (hc : xs.toFinset.card ≤ K) :
    (∀ β, 0 < β → 0 < Nsb.publishedWeight xs K β) ∧ IntegrableOn (Nsb.publishedWeight xs K) (Ioi 0) ∧
    IntegrableOn (fun β => Nsb.publishedWeight xs K β * Nsb.publishedMean xs K β) (Ioi 0) := by
  have hK0 : (0:ℝ) < K := by positivity
  have hN : (0:ℝ) < xs.length := by exact_mod_cast List.length_pos_iff.2 hx
  have hw : ∀ β, 0 < β → Nsb.publishedWeight xs K β =
      (∏ a ∈ xs.toFinset, Nsb.rising β (cnt xs a)) / Nsb.rising (K * β) xs.length * nsbDxi β K := by
    intro β hβ
    rw [Nsb.publishedWeight, (priorMean_hasDeriv hK0 hβ.le).deriv]
  have hdx : ∀ β, 0 < β → 0 < nsbDxi β K := fun β hβ => sub_pos.2 (trigamma_scale hK hβ.le)
  have hlik : ∀ β, 0 < β → 0 < (∏ a ∈ xs.toFinset, Nsb.rising β (cnt xs a)) / Nsb.rising (K * β) xs.length := fun β hβ =>
    div_pos (Finset.prod_pos fun a _ => rising_pos hβ _) (rising_pos (by positivity) _)
  have hlik1 : ∀ β, 0 < β → (∏ a ∈ xs.toFinset, Nsb.rising β (cnt xs a)) / Nsb.rising (K * β) xs.length ≤ 1 := by
    intro β hβ
    rw [div_le_one (rising_pos (by positivity) _)]
    have h1 := prod_rising_le xs.toFinset (cnt xs) hβ.le
    have h2 : ∑ a ∈ xs.toFinset, cnt xs a = xs.length := by exact_mod_cast sum_count xs
    rw [h2] at h1
    refine h1.trans (rising_le (by positivity) ?_ _)
    have : ((xs.toFinset.card : ℕ) : ℝ) ≤ K := by exact_mod_cast hc
    nlinarith
  have cw : ContinuousOn (Nsb.publishedWeight xs K) (Ioi 0) := by
    refine ContinuousOn.congr (f := fun β => (∏ a ∈ xs.toFinset, Nsb.rising β (cnt xs a)) /
      Nsb.rising (K * β) xs.length * nsbDxi β K) ?_ fun β hβ => hw β hβ
    refine ContinuousOn.mul (ContinuousOn.div ?_ ?_ ?_) ((dxi_continuousOn hK0).mono fun x hx => mem_Ici.2 (le_of_lt (mem_Ioi.1 hx)))
    · exact (continuous_finsetProd _ fun c _ => rising_continuous _).continuousOn
    · exact ((rising_continuous _).comp (continuous_const.mul continuous_id)).continuousOn
    · intro β (hβ : 0 < β)
      exact (rising_pos (by positivity) _).ne'
  have cm : ContinuousOn (Nsb.publishedMean xs K) (Ioi 0) := by
    have hA : ∀ β ∈ Ioi (0:ℝ), (0:ℝ) < xs.length + K * β := by
      intro β (hβ : 0 < β); positivity
    have hdig : ∀ (u : ℝ → ℝ), ContinuousOn u (Ioi 0) → (∀ β ∈ Ioi (0:ℝ), 0 < u β) →
        ContinuousOn (fun β => Nsb.psi (u β)) (Ioi 0) := fun u hu hp => digamma_continuousOn.comp hu hp
    unfold Nsb.publishedMean
    refine ContinuousOn.sub ?_ (ContinuousOn.add ?_ ?_)
    · exact hdig _ (by fun_prop) fun β hβ => by linarith [hA β hβ]
    · refine continuousOn_finsetSum _ fun a _ => ContinuousOn.mul (ContinuousOn.div (by fun_prop) (by fun_prop)
        fun β hβ => (hA β hβ).ne') ?_
      exact hdig _ (by fun_prop) fun β (hβ : 0 < β) => by positivity
    · refine continuousOn_const.mul (ContinuousOn.mul (ContinuousOn.div (by fun_prop) (by fun_prop)
        fun β hβ => (hA β hβ).ne') ?_)
      exact hdig _ (by fun_prop) fun β (hβ : 0 < β) => by positivity
  refine ⟨fun β hβ => by rw [hw β hβ]; exact mul_pos (hlik β hβ) (hdx β hβ), ?_, ?_⟩
  · refine Integrable.mono' (dxi_integrable hK) (cw.aestronglyMeasurable measurableSet_Ioi) ?_
    refine (ae_restrict_iff' measurableSet_Ioi).2 (Filter.Eventually.of_forall fun β (hβ : 0 < β) => ?_)
    rw [hw β hβ, Real.norm_of_nonneg (mul_pos (hlik β hβ) (hdx β hβ)).le]
    exact mul_le_of_le_one_left (hdx β hβ).le (hlik1 β hβ)
  · refine Integrable.mono' ((dxi_integrable hK).mul_const (Real.log K)) ((cw.mul cm).aestronglyMeasurable measurableSet_Ioi) ?_
    refine (ae_restrict_iff' measurableSet_Ioi).2 (Filter.Eventually.of_forall fun β (hβ : 0 < β) => ?_)
    have hm := publishedMean_bounds xs hx hK hc hβ
    have hp := mul_pos (hlik β hβ) (hdx β hβ)
    rw [hw β hβ, Real.norm_of_nonneg (mul_pos hp hm.1).le]
    exact mul_le_mul (mul_le_of_le_one_left (hdx β hβ).le (hlik1 β hβ)) hm.2 hm.1.le (hdx β hβ).le

/-- the published estimate lies strictly above 0 and is at most `log K` -/
theorem published_bounds (xs : List α) (hx : xs ≠ []) {K : ℕ} (hK : 2 ≤ K) (hc : xs.toFinset.card ≤ K) :
    0 < Nsb.publishedEstimate xs K ∧ Nsb.publishedEstimate xs K ≤ Real.log K := by
  obtain ⟨h1, h2, h3⟩ := publishedWeight_facts xs hx hK hc
  have hpos : ∀ (u : ℝ → ℝ), (∀ β, 0 < β → 0 < u β) → IntegrableOn u (Ioi 0) → 0 < ∫ β in Ioi (0:ℝ), u β := by
    intro u hu hi
    rw [setIntegral_pos_iff_support_of_nonneg_ae _ hi]
    · have : Function.support u ∩ Ioi 0 = Ioi 0 := by
        ext β
        simp only [mem_inter_iff, Function.mem_support, mem_Ioi, and_iff_right_iff_imp]
        exact fun h => (hu β h).ne'
      rw [this]; simp
    · exact (ae_restrict_iff' measurableSet_Ioi).2 (Filter.Eventually.of_forall fun β hβ => (hu β hβ).le)
  have hden := hpos _ h1 h2
  have hnum := hpos (fun β => Nsb.publishedWeight xs K β * Nsb.publishedMean xs K β)
    (fun β hβ => mul_pos (h1 β hβ) (publishedMean_bounds xs hx hK hc hβ).1) h3
  refine ⟨div_pos hnum hden, ?_⟩
  rw [Nsb.publishedEstimate, div_le_iff₀ hden, ← integral_const_mul]
  refine setIntegral_mono_on h3 (h2.const_mul _) measurableSet_Ioi fun β hβ => ?_
  rw [mul_comm]
  exact mul_le_mul_of_nonneg_right (publishedMean_bounds xs hx hK hc hβ).2 (h1 β hβ).le

end

/-- **C67** (finding) The library's NSB entropy is not the published one: on every constant sample with a support size `K ≥ 2`
different from the sample size the library returns 0, the published estimator (integral over all concentrations, unobserved cells
included, no extra exponents) a positive number of at most `log K`. -/
theorem C67_differs_from_published (xs : List Int) (hx : xs ≠ []) (h : ∀ u ∈ xs, ∀ v ∈ xs, u = v) (find : Int → Int → ℝ) (K : Nat)
    (hK : 2 ≤ K) (hKN : K ≠ xs.length) (b : Base) (hb : b.Std) :
    nsbEntropy find (some (K : Int)) b [.arr1 xs] = .ok 0 ∧ 0 < Nsb.publishedEstimate xs K / b.ln ∧
      Nsb.publishedEstimate xs K ≤ Real.log K := by
  obtain ⟨a, ha⟩ := List.exists_mem_of_ne_nil xs hx
  have hc : xs.toFinset.card ≤ K := by rw [toFinset_const ha h, Finset.card_singleton]; omega
  obtain ⟨h1, h2⟩ := published_bounds xs hx hK hc
  exact ⟨C67_constant xs hx h find K hK hKN b hb, div_pos h1 hb.ln_pos, h2⟩

example : (∀ u ∈ [3, 3, 3, (3 : Int)], ∀ v ∈ [3, 3, 3, (3 : Int)], u = v) ∧ 2 ≤ 7 ∧ 7 ≠ [3, 3, 3, (3 : Int)].length := by decide

end Verif
