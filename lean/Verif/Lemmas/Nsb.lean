import Verif.Lemmas.Digamma
import Verif.Spec.Nsb
import Verif.Lemmas.BiasMI

/-! # Lemmas: the NSB integrands -/

namespace Verif

open Set Filter Topology Spec MeasureTheory

theorem nsb_psi_eq (x : ℝ) : Nsb.psi x = digamma x := rfl

theorem rising_pos {β : ℝ} (hβ : 0 < β) (n : ℕ) : 0 < Nsb.rising β n :=
  Finset.prod_pos fun j _ => by positivity

/-- `Γ(β + n) = Γ(β) · (β)_n` -/
theorem gamma_rising {β : ℝ} (hβ : 0 < β) (n : ℕ) :
    Real.Gamma (β + n) = Real.Gamma β * Nsb.rising β n := by
  induction n with
  | zero => simp [Nsb.rising]
  | succ n ih =>
    rw [Nsb.rising, Finset.prod_range_succ, ← Nsb.rising, ← mul_assoc, ← ih]
    push_cast
    rw [← add_assoc, Real.Gamma_add_one (by positivity), mul_comm]

theorem logGamma_rising {β : ℝ} (hβ : 0 < β) (n : ℕ) :
    logGamma (β + n) - logGamma β = Real.log (Nsb.rising β n) := by
  rw [logGamma, logGamma, gamma_rising hβ, Real.log_mul (Real.Gamma_pos_of_pos hβ).ne' (rising_pos hβ n).ne']
  ring

/-- `dξ/dβ` -/
theorem priorMean_hasDeriv {K β : ℝ} (hK : 0 < K) (hβ : 0 ≤ β) : HasDerivAt (Nsb.priorMean K) (nsbDxi β K) β := by
  have h1 : HasDerivAt (fun β => digamma (K * β + 1)) (trigamma (K * β + 1) * K) β := by
    have hin : HasDerivAt (fun β : ℝ => K * β + 1) K β := by simpa using ((hasDerivAt_id β).const_mul K).add_const 1
    exact (digamma_hasDeriv (by positivity : 0 < K * β + 1)).comp β hin
  have h2 : HasDerivAt (fun β => digamma (β + 1)) (trigamma (β + 1)) β :=
    (digamma_hasDeriv (by linarith)).comp_add_const β 1
  have := h1.sub h2
  rw [mul_comm, add_comm (K * β) 1, add_comm β 1] at this
  exact this

section
variable {α : Type} [DecidableEq α]

/-- the integrand's exponential is the weight without `dξ` -/
theorem exp_negLogRho {β K : ℝ} (hβ : 0 < β) (hK : 0 < K) (n : ℕ) (l : List ℕ) :
    Real.exp (-nsbNegLogRho β K n (l.map Int.ofNat)) =
      (l.map (fun c => Nsb.rising β c ^ c)).prod / Nsb.rising (K * β) n := by
  have hκ : 0 < K * β := mul_pos hK hβ
  have e1 : logGamma ((n : ℝ) + K * β) = logGamma (K * β) + Real.log (Nsb.rising (K * β) n) := by
    rw [← logGamma_rising hκ, add_comm (n : ℝ)]; ring
  have e2 : ((l.map Int.ofNat).map (fun c : Int => (c : ℝ) * (logGamma ((c : ℝ) + β) - logGamma β))).sum =
      Real.log (l.map (fun c => Nsb.rising β c ^ c)).prod := by
    induction l with
    | nil => simp
    | cons c l ih =>
      have hp : (l.map (fun c => Nsb.rising β c ^ c)).prod ≠ 0 := by
        refine (List.prod_pos ?_).ne'
        intro x hx
        obtain ⟨c, _, rfl⟩ := List.mem_map.1 hx
        exact pow_pos (rising_pos hβ c) c
      simp only [List.map_cons, List.sum_cons, List.prod_cons, ih]
      rw [Real.log_mul (pow_pos (rising_pos hβ c) c).ne' hp, Real.log_pow, ← logGamma_rising hβ]
      simp [add_comm]
  have hp : 0 < (l.map (fun c => Nsb.rising β c ^ c)).prod := by
    refine List.prod_pos ?_
    intro x hx
    obtain ⟨c, _, rfl⟩ := List.mem_map.1 hx
    exact pow_pos (rising_pos hβ c) c
  simp only [nsbNegLogRho, e2, e1]
  rw [show -(-(logGamma (K * β) - (logGamma (K * β) + Real.log (Nsb.rising (K * β) n))) -
      Real.log (l.map (fun c => Nsb.rising β c ^ c)).prod) =
      Real.log (l.map (fun c => Nsb.rising β c ^ c)).prod - Real.log (Nsb.rising (K * β) n) by ring,
    Real.exp_sub, Real.exp_log hp, Real.exp_log (rising_pos hκ n)]

end

/-! ## Bounds of the posterior mean -/

/-- a Dirichlet mean entropy with parameters `f i > 0` lies between 0 and the log of the number of cells -/
theorem dirichletMean_bounds {ι : Type} (s : Finset ι) (hs : s.Nonempty) (f : ι → ℝ) (hf : ∀ i ∈ s, 0 < f i) :
    0 ≤ digamma (∑ i ∈ s, f i + 1) - ∑ i ∈ s, f i / (∑ i ∈ s, f i) * digamma (f i + 1) ∧
    digamma (∑ i ∈ s, f i + 1) - ∑ i ∈ s, f i / (∑ i ∈ s, f i) * digamma (f i + 1) ≤ Real.log s.card := by
  set A := ∑ i ∈ s, f i with hA
  have hA0 : 0 < A := Finset.sum_pos hf hs
  have hm : (0:ℝ) < s.card := by exact_mod_cast Finset.card_pos.2 hs
  have hone : ∑ i ∈ s, f i / A = 1 := by rw [← Finset.sum_div, ← hA, div_self hA0.ne']
  constructor
  · have : ∑ i ∈ s, f i / A * digamma (f i + 1) ≤ ∑ i ∈ s, f i / A * digamma (A + 1) := by
      refine Finset.sum_le_sum fun i hi => mul_le_mul_of_nonneg_left ?_ (by have := hf i hi; positivity)
      have : f i ≤ A := Finset.single_le_sum (fun j hj => (hf j hj).le) hi
      exact digamma_mono (by have := hf i hi; linarith) (by linarith)
    rw [← Finset.sum_mul, hone, one_mul] at this
    linarith
  · set t := A / s.card with ht
    have ht0 : 0 < t := by positivity
    have key : digamma (t + 1) ≤ ∑ i ∈ s, f i / A * digamma (f i + 1) := by
      -- `ψ(t+1) − Σ …` is a sum of non-positive terms
      have hsum : HasSum (fun n : ℕ => ∑ i ∈ s, f i / A * (1 / ((n : ℝ) + (t + 1)) - 1 / ((n : ℝ) + (f i + 1))))
          (∑ i ∈ s, f i / A * (digamma (f i + 1) - digamma (t + 1))) :=
        hasSum_sum fun i hi => (digamma_series (by linarith) (by have := hf i hi; linarith)).mul_left _
      have h0 : 0 ≤ ∑ i ∈ s, f i / A * (digamma (f i + 1) - digamma (t + 1)) := by
        refine hsum.nonneg fun n => ?_
        have hc : (0:ℝ) < (n : ℝ) + 1 := by positivity
        have hterm : ∀ i ∈ s, f i / A * (1 / ((n : ℝ) + (t + 1)) - 1 / ((n : ℝ) + (f i + 1))) ≥
            1 / A * ((f i - t) * (t / ((n : ℝ) + 1 + t) ^ 2)) := by
          intro i hi
          have hfi := hf i hi
          have : f i / A * (1 / ((n : ℝ) + (t + 1)) - 1 / ((n : ℝ) + (f i + 1))) -
              1 / A * ((f i - t) * (t / ((n : ℝ) + 1 + t) ^ 2)) =
              1 / A * ((f i - t) ^ 2 * ((n : ℝ) + 1) / (((n : ℝ) + 1 + t) ^ 2 * ((n : ℝ) + 1 + f i))) := by
            have h1 : (n : ℝ) + (t + 1) ≠ 0 := by positivity
            have h2 : (n : ℝ) + (f i + 1) ≠ 0 := by positivity
            have h3 : (n : ℝ) + 1 + t ≠ 0 := by positivity
            have h4 : (n : ℝ) + 1 + f i ≠ 0 := by positivity
            field_simp
            ring
          have h5 : 0 ≤ 1 / A * ((f i - t) ^ 2 * ((n : ℝ) + 1) / (((n : ℝ) + 1 + t) ^ 2 * ((n : ℝ) + 1 + f i))) := by
            positivity
          linarith
        refine le_trans ?_ (Finset.sum_le_sum hterm)
        rw [← Finset.mul_sum, ← Finset.sum_mul, Finset.sum_sub_distrib, ← hA, Finset.sum_const, nsmul_eq_mul, ht]
        have : A - s.card * (A / s.card) = 0 := by field_simp; ring
        rw [this]; simp
      simp only [mul_sub, Finset.sum_sub_distrib] at h0
      rw [← Finset.sum_mul, hone, one_mul] at h0
      linarith
    have h2 := digamma_le_log ht0 (by
      rw [ht]
      exact div_le_self hA0.le (by exact_mod_cast Finset.card_pos.2 hs) : t ≤ A)
    rw [ht, Real.log_div hA0.ne' hm.ne', ← ht] at h2
    linarith

/-! ## Integrability -/

/-- `(β+1)(β+2)⋯(β+m)` -/
noncomputable def nsbRest (m : ℕ) (β : ℝ) : ℝ := ∏ j ∈ Finset.range m, (β + (j + 1))

theorem rising_succ (β : ℝ) (m : ℕ) : Nsb.rising β (m + 1) = β * nsbRest m β := by
  rw [Nsb.rising, Finset.prod_range_succ', mul_comm, nsbRest]
  push_cast
  rw [add_zero]

theorem nsbRest_pos {β : ℝ} (hβ : 0 ≤ β) (m : ℕ) : 0 < nsbRest m β :=
  Finset.prod_pos fun j _ => by positivity

theorem nsbRest_continuous (m : ℕ) : Continuous (nsbRest m) := by
  unfold nsbRest; fun_prop

theorem rising_continuous (m : ℕ) : Continuous (fun β => Nsb.rising β m) := by
  unfold Nsb.rising; fun_prop

section
variable {α : Type} [DecidableEq α]

/-- the weight without `dξ` is continuous up to `β = 0` -/
theorem likelihood_cont (xs : List α) (hx : xs ≠ []) {K : ℝ} (hK : 0 < K) : ∃ g : ℝ → ℝ, ContinuousOn g (Ici 0) ∧
    ∀ β, 0 < β → (∏ a ∈ xs.toFinset, Nsb.rising β (cnt xs a) ^ cnt xs a) / Nsb.rising (K * β) xs.length = g β := by
  obtain ⟨a, ha⟩ := List.exists_mem_of_ne_nil xs hx
  obtain ⟨m, hm⟩ : ∃ m, cnt xs a = m + 1 := ⟨cnt xs a - 1, by have := cnt_pos_iff.2 ha; omega⟩
  obtain ⟨n, hn⟩ : ∃ n, xs.length = n + 1 := ⟨xs.length - 1, by have := List.length_pos_iff.2 hx; omega⟩
  refine ⟨fun β => (nsbRest m β * Nsb.rising β (m + 1) ^ m * ∏ c ∈ xs.toFinset.erase a, Nsb.rising β (cnt xs c) ^ cnt xs c) /
    (K * nsbRest n (K * β)), ?_, ?_⟩
  · refine ContinuousOn.div ?_ ?_ ?_
    · refine Continuous.continuousOn ?_
      refine ((nsbRest_continuous m).mul ((rising_continuous _).pow m)).mul ?_
      exact continuous_finsetProd _ fun c _ => (rising_continuous _).pow _
    · exact (continuous_const.mul ((nsbRest_continuous n).comp (continuous_const.mul continuous_id))).continuousOn
    · intro β (hβ : 0 ≤ β)
      exact (mul_pos hK (nsbRest_pos (by positivity) n)).ne'
  · intro β hβ
    have h1 : 0 < nsbRest n (K * β) := nsbRest_pos (by positivity) n
    rw [← Finset.mul_prod_erase _ _ (List.mem_toFinset.2 ha), hm, hn, rising_succ (K * β) n]
    rw [pow_succ (Nsb.rising β (m + 1)) m, div_eq_div_iff (by positivity) (by positivity)]
    conv_lhs => rw [show Nsb.rising β (m + 1) ^ m * Nsb.rising β (m + 1) =
      Nsb.rising β (m + 1) ^ m * (β * nsbRest m β) by rw [← rising_succ]]
    ring

theorem dxi_continuousOn {K : ℝ} (hK : 0 < K) : ContinuousOn (fun β => nsbDxi β K) (Ici 0) := by
  unfold nsbDxi
  refine ContinuousOn.sub (continuousOn_const.mul ?_) ?_
  · refine trigamma_continuousOn.comp (by fun_prop) ?_
    intro β (hβ : 0 ≤ β)
    show (1:ℝ) ≤ 1 + K * β
    have : 0 ≤ K * β := by positivity
    linarith
  · refine trigamma_continuousOn.comp (by fun_prop) ?_
    intro β (hβ : 0 ≤ β)
    show (1:ℝ) ≤ 1 + β
    linarith

theorem posteriorMean_continuousOn (xs : List α) (hx : xs ≠ []) : ContinuousOn (Nsb.posteriorMean xs) (Ici 0) := by
  have hN : (0:ℝ) < xs.length := by exact_mod_cast List.length_pos_iff.2 hx
  have hA : ∀ β ∈ Ici (0:ℝ), (0:ℝ) < xs.length + xs.toFinset.card * β := by
    intro β (hβ : 0 ≤ β); positivity
  unfold Nsb.posteriorMean
  refine ContinuousOn.sub ?_ ?_
  · refine digamma_continuousOn.comp (by fun_prop) ?_
    intro β hβ
    show (0:ℝ) < _
    linarith [hA β hβ]
  · refine continuousOn_finsetSum _ fun a _ => ContinuousOn.mul (ContinuousOn.div (by fun_prop) (by fun_prop) fun β hβ => (hA β hβ).ne') ?_
    refine digamma_continuousOn.comp (by fun_prop) ?_
    intro β (hβ : 0 ≤ β)
    show (0:ℝ) < _
    positivity

theorem posteriorMean_bounds (xs : List α) (hx : xs ≠ []) {β : ℝ} (hβ : 0 ≤ β) :
    0 ≤ Nsb.posteriorMean xs β ∧ Nsb.posteriorMean xs β ≤ Real.log xs.toFinset.card := by
  obtain ⟨a, ha⟩ := List.exists_mem_of_ne_nil xs hx
  have h := dirichletMean_bounds xs.toFinset ⟨a, List.mem_toFinset.2 ha⟩ (fun a => (cnt xs a : ℝ) + β)
    (fun a ha => by
      have : (0:ℝ) < cnt xs a := by exact_mod_cast cnt_pos_iff.2 (List.mem_toFinset.1 ha)
      positivity)
  have e : ∑ a ∈ xs.toFinset, ((cnt xs a : ℝ) + β) = xs.length + xs.toFinset.card * β := by
    rw [Finset.sum_add_distrib, Finset.sum_const, nsmul_eq_mul, sum_count]
  simp only [e] at h
  exact h

/-- the weight is positive and integrable on every `(0, b)`, also times the posterior mean -/
theorem weight_facts (xs : List α) (hx : xs ≠ []) {K : ℕ} (hK : 2 ≤ K) {b : ℝ} (hb : 0 < b) :
    (∀ β, 0 < β → 0 < Nsb.weight xs K β) ∧
    IntervalIntegrable (Nsb.weight xs K) volume 0 b ∧
    IntervalIntegrable (fun β => Nsb.weight xs K β * Nsb.posteriorMean xs β) volume 0 b := by
  have hK0 : (0:ℝ) < K := by positivity
  obtain ⟨g, hg, hge⟩ := likelihood_cont xs hx hK0
  have hw : ∀ β, 0 < β → Nsb.weight xs K β = g β * nsbDxi β K := by
    intro β hβ
    rw [Nsb.weight, hge β hβ, (priorMean_hasDeriv hK0 hβ.le).deriv]
  have hsub : uIcc 0 b ⊆ Ici (0:ℝ) := by rw [uIcc_of_le hb.le]; exact fun x hx => hx.1
  have hmem : ∀ β ∈ uIoo 0 b, 0 < β := fun β hβ => by rw [uIoo_of_le hb.le] at hβ; exact hβ.1
  have c1 : ContinuousOn (fun β => g β * nsbDxi β K) (uIcc 0 b) := (hg.mul (dxi_continuousOn hK0)).mono hsub
  have c2 : ContinuousOn (fun β => g β * nsbDxi β K * Nsb.posteriorMean xs β) (uIcc 0 b) :=
    c1.mul ((posteriorMean_continuousOn xs hx).mono hsub)
  refine ⟨fun β hβ => ?_, c1.intervalIntegrable.congr_uIoo fun β hβ => (hw β (hmem β hβ)).symm,
    c2.intervalIntegrable.congr_uIoo fun β hβ => by simp only [hw β (hmem β hβ)]⟩
  rw [Nsb.weight, (priorMean_hasDeriv hK0 hβ.le).deriv]
  refine mul_pos (div_pos (Finset.prod_pos fun a _ => pow_pos (rising_pos hβ _) _) (rising_pos (by positivity) _)) ?_
  exact sub_pos.2 (trigamma_scale hK hβ.le)

theorem log_nat_pos {K : ℕ} (hK : 2 ≤ K) : 0 < Real.log (K : ℝ) :=
  Real.log_pos (by exact_mod_cast hK)

theorem weight_integral_pos (xs : List α) (hx : xs ≠ []) {K : ℕ} (hK : 2 ≤ K) :
    0 < ∫ β in (0:ℝ)..Real.log K, Nsb.weight xs K β := by
  obtain ⟨h1, h2, _⟩ := weight_facts xs hx hK (log_nat_pos hK)
  exact intervalIntegral.intervalIntegral_pos_of_pos_on h2 (fun x hx => h1 x hx.1) (log_nat_pos hK)

/-- the estimate lies between 0 and the log of the number of observed symbols -/
theorem nsb_estimate_bounds (xs : List α) (hx : xs ≠ []) {K : ℕ} (hK : 2 ≤ K) :
    0 ≤ Nsb.estimate xs K ∧ Nsb.estimate xs K ≤ Real.log xs.toFinset.card := by
  have hb := log_nat_pos hK
  obtain ⟨h1, h2, h3⟩ := weight_facts xs hx hK hb
  have hpos := weight_integral_pos xs hx hK
  rw [Nsb.estimate]
  constructor
  · refine div_nonneg ?_ hpos.le
    rw [intervalIntegral.integral_of_le hb.le]
    refine setIntegral_nonneg measurableSet_Ioc fun β hβ => ?_
    exact mul_nonneg (h1 β hβ.1).le (posteriorMean_bounds xs hx hβ.1.le).1
  · rw [div_le_iff₀ hpos, ← intervalIntegral.integral_const_mul]
    refine intervalIntegral.integral_mono_on_of_le_Ioo hb.le h3 (h2.const_mul _) fun β hβ => ?_
    rw [mul_comm]
    exact mul_le_mul_of_nonneg_right (posteriorMean_bounds xs hx hβ.1.le).2 (h1 β hβ.1).le

end

end Verif
