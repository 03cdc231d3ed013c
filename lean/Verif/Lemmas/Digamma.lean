import Verif.Model.Nsb
import Mathlib.Analysis.SpecialFunctions.Gamma.BohrMollerup
import Mathlib.Analysis.SpecialFunctions.Gamma.Deriv
import Mathlib.Analysis.Calculus.SmoothSeries
import Mathlib.Analysis.PSeries

/-! # Lemmas: the digamma and trigamma functions on the positive half line -/

namespace Verif

open Set Filter Topology

theorem gamma_hasDeriv {x : ℝ} (hx : 0 < x) : HasDerivAt Real.Gamma (deriv Real.Gamma x) x :=
  (Real.differentiableAt_Gamma fun m => by
    have : (0:ℝ) ≤ m := Nat.cast_nonneg m
    intro e; linarith).hasDerivAt

theorem logGamma_hasDeriv {x : ℝ} (hx : 0 < x) : HasDerivAt logGamma (digamma x) x := by
  have := (gamma_hasDeriv hx).log (Real.Gamma_pos_of_pos hx).ne'
  exact this

theorem digamma_add_one {x : ℝ} (hx : 0 < x) : digamma (x + 1) = digamma x + 1 / x := by
  have h1 : HasDerivAt (fun y => logGamma (y + 1)) (digamma (x + 1)) x := by
    simpa using (logGamma_hasDeriv (by linarith : 0 < x + 1)).comp_add_const x 1
  have h2 : HasDerivAt (fun y => Real.log y + logGamma y) (1 / x + digamma x) x := by
    have := (Real.hasDerivAt_log hx.ne').add (logGamma_hasDeriv hx)
    rw [one_div]; exact this
  have he : (fun y => logGamma (y + 1)) =ᶠ[𝓝 x] fun y => Real.log y + logGamma y := by
    filter_upwards [lt_mem_nhds hx] with y hy
    rw [logGamma, Real.Gamma_add_one hy.ne', Real.log_mul hy.ne' (Real.Gamma_pos_of_pos hy).ne', logGamma]
  rw [(h2.congr_of_eventuallyEq he).unique h1 |>.symm, add_comm]

theorem digamma_mono {x y : ℝ} (hx : 0 < x) (hxy : x ≤ y) : digamma x ≤ digamma y := by
  have h := ConvexOn.monotoneOn_deriv (S := Ioi 0) (f := logGamma) Real.convexOn_log_Gamma
    (fun z hz => (logGamma_hasDeriv hz).differentiableAt)
  have := h (show x ∈ Ioi (0:ℝ) from hx) (show y ∈ Ioi (0:ℝ) from lt_of_lt_of_le hx hxy) hxy
  rwa [(logGamma_hasDeriv hx).deriv, (logGamma_hasDeriv (lt_of_lt_of_le hx hxy)).deriv] at this

theorem digamma_add_nat {x : ℝ} (hx : 0 < x) (n : ℕ) :
    digamma (x + n) = digamma x + ∑ j ∈ Finset.range n, 1 / ((j : ℝ) + x) := by
  induction n with
  | zero => simp
  | succ n ih =>
    rw [Finset.sum_range_succ, ← add_assoc, ← ih]
    push_cast
    rw [← add_assoc, digamma_add_one (by positivity), add_comm (n : ℝ) x]

/-- far out the digamma function is almost constant on intervals of fixed length -/
theorem digamma_diff_tendsto {x y : ℝ} (hx : 0 < x) (hxy : x ≤ y) :
    Tendsto (fun n : ℕ => digamma (y + n) - digamma (x + n)) atTop (𝓝 0) := by
  have hy : 0 < y := lt_of_lt_of_le hx hxy
  obtain ⟨m, hm⟩ := exists_nat_ge (y - x)
  have hb : ∀ n : ℕ, digamma (y + n) - digamma (x + n) ≤ ∑ j ∈ Finset.range m, 1 / ((j : ℝ) + (x + n)) := by
    intro n
    have h1 : digamma (y + n) ≤ digamma (x + n + m) := digamma_mono (by positivity) (by linarith)
    rw [digamma_add_nat (x := x + n) (by positivity)] at h1
    linarith
  have h0 : ∀ n : ℕ, 0 ≤ digamma (y + n) - digamma (x + n) := fun n =>
    sub_nonneg.2 (digamma_mono (by positivity) (by linarith))
  refine tendsto_of_tendsto_of_tendsto_of_le_of_le tendsto_const_nhds ?_ h0 hb
  have : Tendsto (fun n : ℕ => ∑ j ∈ Finset.range m, 1 / ((j : ℝ) + (x + n))) atTop
      (𝓝 (∑ j ∈ Finset.range m, 0)) := by
    refine tendsto_finsetSum _ fun j _ => ?_
    refine Tendsto.div_atTop tendsto_const_nhds ?_
    exact tendsto_atTop_add_const_left _ _ (tendsto_atTop_add_const_left _ _ tendsto_natCast_atTop_atTop)
  simpa using this

theorem digamma_series_le {x y : ℝ} (hx : 0 < x) (hxy : x ≤ y) :
    HasSum (fun n : ℕ => 1 / ((n : ℝ) + x) - 1 / ((n : ℝ) + y)) (digamma y - digamma x) := by
  have hy : 0 < y := lt_of_lt_of_le hx hxy
  rw [hasSum_iff_tendsto_nat_of_nonneg]
  · have e : (fun n : ℕ => ∑ i ∈ Finset.range n, (1 / ((i : ℝ) + x) - 1 / ((i : ℝ) + y))) =
        fun n : ℕ => (digamma y - digamma x) - (digamma (y + n) - digamma (x + n)) := by
      funext n
      rw [Finset.sum_sub_distrib, digamma_add_nat hx, digamma_add_nat hy]; ring
    rw [e]
    simpa using tendsto_const_nhds.sub (digamma_diff_tendsto hx hxy)
  · intro i
    rw [sub_nonneg]
    exact one_div_le_one_div_of_le (by positivity) (by linarith)

theorem digamma_series {x y : ℝ} (hx : 0 < x) (hy : 0 < y) :
    HasSum (fun n : ℕ => 1 / ((n : ℝ) + x) - 1 / ((n : ℝ) + y)) (digamma y - digamma x) := by
  rcases le_total x y with h | h
  · exact digamma_series_le hx h
  · have := (digamma_series_le hy h).neg
    simpa using this

theorem trigamma_summable {x : ℝ} (hx : 0 < x) : Summable (fun n : ℕ => 1 / ((n : ℝ) + x) ^ 2) := by
  have h := Real.summable_one_div_nat_add_rpow x 2 |>.2 (by norm_num)
  refine h.congr fun n => ?_
  rw [abs_of_pos (by positivity)]
  norm_num

/-- the trigamma function is the derivative of the digamma function -/
theorem digamma_hasDeriv {x : ℝ} (hx : 0 < x) : HasDerivAt digamma (trigamma x) x := by
  have hx2 : 0 < x / 2 := by linarith
  have h := hasDerivAt_tsum_of_isPreconnected (t := Ioi (x / 2)) (u := fun n : ℕ => 1 / ((n : ℝ) + x / 2) ^ 2)
    (g := fun (n : ℕ) (y : ℝ) => 1 / ((n : ℝ) + x) - 1 / ((n : ℝ) + y))
    (g' := fun (n : ℕ) (y : ℝ) => 1 / ((n : ℝ) + y) ^ 2) (y₀ := x) (y := x)
    (trigamma_summable hx2) isOpen_Ioi isPreconnected_Ioi ?_ ?_ (by simp [hx]) (by simp)
    (by simp [hx])
  · have he : digamma =ᶠ[𝓝 x] fun y => digamma x + ∑' n : ℕ, (1 / ((n : ℝ) + x) - 1 / ((n : ℝ) + y)) := by
      filter_upwards [lt_mem_nhds hx] with y hy
      rw [(digamma_series hx hy).tsum_eq]; ring
    exact (h.const_add (digamma x)).congr_of_eventuallyEq he
  · intro n y hy
    have hy' : (n : ℝ) + y ≠ 0 := by
      have : x / 2 < y := hy
      have : (0:ℝ) ≤ n := Nat.cast_nonneg n
      intro e; linarith
    have := (((hasDerivAt_id y).const_add (n : ℝ)).inv hy').const_sub (1 / ((n : ℝ) + x))
    simp only [id, one_div] at this ⊢
    rw [neg_div, neg_neg, one_div] at this
    exact this
  · intro n y hy
    have : x / 2 < y := hy
    have h0 : (0:ℝ) ≤ n := Nat.cast_nonneg n
    rw [Real.norm_of_nonneg (by positivity)]
    exact one_div_le_one_div_of_le (by positivity) (by gcongr)

theorem digamma_continuousOn : ContinuousOn digamma (Ioi 0) := fun x hx =>
  (digamma_hasDeriv hx).continuousAt.continuousWithinAt

theorem trigamma_continuousOn : ContinuousOn trigamma (Ici 1) := by
  refine continuousOn_tsum (u := fun n : ℕ => 1 / ((n : ℝ) + 1) ^ 2) ?_ (trigamma_summable one_pos) ?_
  · intro n x (hx : (1:ℝ) ≤ x)
    have h0 : (0:ℝ) ≤ n := Nat.cast_nonneg n
    have : ((n : ℝ) + x) ^ 2 ≠ 0 := by positivity
    fun_prop (disch := assumption)
  · intro n x hx
    have : (1:ℝ) ≤ x := hx
    have h0 : (0:ℝ) ≤ n := Nat.cast_nonneg n
    rw [Real.norm_of_nonneg (by positivity)]
    exact one_div_le_one_div_of_le (by positivity) (by gcongr)

theorem trigamma_le_inv {x : ℝ} (hx : 0 < x) : trigamma (x + 1) ≤ 1 / x := by
  refine (trigamma_summable (by linarith)).tsum_le_of_sum_range_le fun n => ?_
  have : ∀ n : ℕ, ∑ i ∈ Finset.range n, 1 / ((i : ℝ) + (x + 1)) ^ 2 ≤ 1 / x - 1 / ((n : ℝ) + x) := by
    intro n
    induction n with
    | zero => simp
    | succ n ih =>
      rw [Finset.sum_range_succ]
      have hp : (0:ℝ) < (n : ℝ) + x := by positivity
      have : 1 / ((n : ℝ) + (x + 1)) ^ 2 ≤ 1 / ((n : ℝ) + x) - 1 / (((n + 1 : ℕ) : ℝ) + x) := by
        push_cast
        rw [div_sub_div _ _ hp.ne' (by positivity), div_le_div_iff₀ (by positivity) (by positivity)]
        nlinarith
      linarith
  have h2 : (0:ℝ) ≤ 1 / ((n : ℝ) + x) := by positivity
  linarith [this n]

/-- the digamma function grows at most like the logarithm -/
theorem digamma_le_log {x y : ℝ} (hx : 0 < x) (hxy : x ≤ y) :
    digamma (y + 1) - digamma (x + 1) ≤ Real.log y - Real.log x := by
  have hm : MonotoneOn (fun z => Real.log z - digamma (z + 1)) (Ioi 0) := by
    have hd : ∀ z ∈ Ioi (0:ℝ), HasDerivAt (fun z => Real.log z - digamma (z + 1)) (z⁻¹ - trigamma (z + 1)) z := by
      intro z (hz : 0 < z)
      exact (Real.hasDerivAt_log hz.ne').sub ((digamma_hasDeriv (by linarith)).comp_add_const z 1)
    refine monotoneOn_of_deriv_nonneg (convex_Ioi 0) (fun z hz => (hd z hz).continuousAt.continuousWithinAt)
      (fun z hz => ?_) fun z hz => ?_
    · rw [interior_Ioi] at hz
      exact (hd z hz).differentiableAt.differentiableWithinAt
    · rw [interior_Ioi] at hz
      rw [(hd z hz).deriv, sub_nonneg, ← one_div]
      exact trigamma_le_inv hz
  have := hm (show x ∈ Ioi (0:ℝ) from hx) (show y ∈ Ioi (0:ℝ) from lt_of_lt_of_le hx hxy) hxy
  simp only at this
  linarith

/-- `K ψ'(1+Kβ) > ψ'(1+β)` -/
theorem trigamma_scale {K : ℕ} (hK : 2 ≤ K) {β : ℝ} (hβ : 0 ≤ β) :
    trigamma (1 + β) < K * trigamma (1 + K * β) := by
  have hK0 : (0:ℝ) < K := by positivity
  have hf : Summable (fun n : ℕ => (K : ℝ) * (1 / ((n : ℝ) + (1 + K * β)) ^ 2)) :=
    (trigamma_summable (by positivity)).mul_left _
  -- one block of `K` consecutive terms on the right against one term on the left
  have hblock : ∀ m : ℕ, 1 / ((m : ℝ) + (1 + β)) ^ 2 <
      ∑ r ∈ Finset.range K, (K : ℝ) * (1 / (((K * m + r : ℕ) : ℝ) + (1 + K * β)) ^ 2) := by
    intro m
    have hterm : ∀ r : ℕ, 1 / (K : ℝ) * (1 / ((m : ℝ) + (1 + β)) ^ 2) = K * (1 / (K * ((m : ℝ) + (1 + β))) ^ 2) := by
      intro r; field_simp
    have hcalc : 1 / ((m : ℝ) + (1 + β)) ^ 2 =
        ∑ _r ∈ Finset.range K, 1 / (K : ℝ) * (1 / ((m : ℝ) + (1 + β)) ^ 2) := by
      rw [Finset.sum_const, Finset.card_range, nsmul_eq_mul]; field_simp
    rw [hcalc]
    refine Finset.sum_lt_sum (fun r hr => ?_) ⟨0, by simp; omega, ?_⟩
    · have hr' : ((r : ℝ) + 1) ≤ K := by exact_mod_cast Finset.mem_range.1 hr
      rw [hterm r]
      gcongr
      push_cast
      nlinarith
    · have hK' : (2:ℝ) ≤ K := by exact_mod_cast hK
      rw [hterm 0]
      gcongr
      push_cast
      nlinarith
  set f := fun n : ℕ => (K : ℝ) * (1 / ((n : ℝ) + (1 + K * β)) ^ 2) with hfdef
  have hf0 : ∀ n, 0 ≤ f n := fun n => by simp only [hfdef]; positivity
  have hpart : ∀ M : ℕ, ∑ m ∈ Finset.range (M + 1), 1 / ((m : ℝ) + (1 + β)) ^ 2 +
      (∑ r ∈ Finset.range K, f (K * 0 + r) - 1 / (((0 : ℕ) : ℝ) + (1 + β)) ^ 2) ≤ ∑ n ∈ Finset.range (K * (M + 1)), f n := by
    intro M
    induction M with
    | zero => simp
    | succ M ih =>
      rw [Finset.sum_range_succ, Nat.mul_succ K (M + 1), Finset.sum_range_add f (K * (M + 1)) K]
      have := hblock (M + 1)
      simp only [hfdef] at this ih ⊢
      linarith
  have hδ := hblock 0
  have htot : trigamma (1 + β) ≤ K * trigamma (1 + K * β) -
      (∑ r ∈ Finset.range K, f (K * 0 + r) - 1 / (((0 : ℕ) : ℝ) + (1 + β)) ^ 2) := by
    refine (trigamma_summable (by linarith)).tsum_le_of_sum_range_le fun n => ?_
    have h1 : ∑ i ∈ Finset.range n, 1 / ((i : ℝ) + (1 + β)) ^ 2 ≤
        ∑ i ∈ Finset.range (n + 1), 1 / ((i : ℝ) + (1 + β)) ^ 2 :=
      Finset.sum_le_sum_of_subset_of_nonneg (Finset.range_mono (Nat.le_succ n)) fun i _ _ => by positivity
    have h2 : ∑ i ∈ Finset.range (K * (n + 1)), f i ≤ K * trigamma (1 + K * β) := by
      rw [trigamma, ← tsum_mul_left]
      exact hf.sum_le_tsum _ fun i _ => hf0 i
    linarith [hpart n]
  simp only [hfdef] at htot
  linarith

end Verif
