import Verif.Spec.AlmostSureDiv
import Verif.Lemmas.Divergence
import Verif.Lemmas.AlmostSure

/-!
# Lemmas for C104
-/

namespace Verif

open Spec MeasureTheory ProbabilityTheory

section
variable {α : Type} [DecidableEq α]

theorem asd_cross {S : Finset α} {xs ys : List α} (hx : ∀ w ∈ xs, w ∈ S) :
    crossEntropy xs ys = - ∑ a ∈ S, freq xs a * Real.log (freq ys a) := by
  unfold crossEntropy
  congr 1
  refine Finset.sum_subset (fun a ha => hx a (List.mem_toFinset.1 (Finset.mem_inter.1 ha).1)) fun a _ ha => ?_
  by_cases h1 : a ∈ xs
  · have h2 : a ∉ ys := fun h => ha (by simp [h1, h])
    rw [freq_eq_zero h2]; simp
  · rw [freq_eq_zero h1]; simp

/-- the empirical cross-entropy converges if the frequencies do, and the second sample has no symbol of probability zero -/
theorem asd_cross_tendsto {S : Finset α} {L L' : ℕ → List α} (hL : ∀ n, ∀ w ∈ L n, w ∈ S) {p q : α → ℝ}
    (hp : ∀ a ∈ S, Filter.Tendsto (fun n => freq (L n) a) Filter.atTop (nhds (p a)))
    (hq : ∀ a ∈ S, Filter.Tendsto (fun n => freq (L' n) a) Filter.atTop (nhds (q a)))
    (h0 : ∀ a ∈ S, q a = 0 → ∀ n, a ∉ L' n) :
    Filter.Tendsto (fun n => crossEntropy (L n) (L' n)) Filter.atTop (nhds (crossOf S p q)) := by
  have e : crossOf S p q = - ∑ a ∈ S, p a * Real.log (q a) := by
    unfold crossOf
    rw [Finset.sum_filter]
    congr 1
    refine Finset.sum_congr rfl fun a _ => ?_
    split_ifs with h
    · rfl
    · rw [not_not.1 h]; simp
  rw [e]
  simp only [asd_cross (hL _)]
  refine (tendsto_finset_sum _ fun a ha => ?_).neg
  by_cases h : q a = 0
  · have : ∀ n, freq (L n) a * Real.log (freq (L' n) a) = 0 := fun n => by rw [freq_eq_zero (h0 a ha h n)]; simp
    simp only [this, h]
    simp
  · exact (hp a ha).mul ((hq a ha).log h)

theorem asd_jsd {S : Finset α} {m : ℕ} {L : Fin m → List α} (hL : ∀ j, ∀ w ∈ L j, w ∈ S) :
    jsd (List.ofFn L) = (∑ j, klOf S (fun a => freq (L j) a) (mixOf fun j a => freq (L j) a)) / m := by
  unfold jsd
  rw [List.length_ofFn, List.map_ofFn, List.sum_ofFn]
  congr 1
  refine Finset.sum_congr rfl fun j _ => ?_
  have e : ∀ a, mixture (List.ofFn L) a = mixOf (fun j a => freq (L j) a) a := fun a => by
    unfold mixture mixOf
    rw [List.length_ofFn, List.map_ofFn, List.sum_ofFn]
    rfl
  simp only [Function.comp, e, klOf]
  refine Finset.sum_subset_zero_on_sdiff (fun a ha => ?_) (fun a ha => ?_) (fun a _ => rfl)
  · have ha := List.mem_toFinset.1 ha
    exact Finset.mem_filter.2 ⟨hL j a ha, (freq_pos ha).ne'⟩
  · simp only [Finset.mem_sdiff, Finset.mem_filter, List.mem_toFinset] at ha
    exact absurd (freq_eq_zero ha.2) ha.1.2

/-- the divergence from the mixture, written with continuous functions -/
theorem asd_kl_mix {S : Finset α} {m : ℕ} {P : Fin m → α → ℝ} (hP : ∀ j, ∀ a ∈ S, 0 ≤ P j a) :
    (∑ j, klOf S (P j) (mixOf P)) / m = (∑ a ∈ S, Real.negMulLog (mixOf P a)) - (∑ j, ∑ a ∈ S, Real.negMulLog (P j a)) / m := by
  rcases Nat.eq_zero_or_pos m with rfl | hm
  · simp [mixOf]
  have hm' : (m : ℝ) ≠ 0 := by positivity
  have e : ∀ j, klOf S (P j) (mixOf P) = ∑ a ∈ S, (- Real.negMulLog (P j a) - P j a * Real.log (mixOf P a)) := fun j => by
    unfold klOf
    rw [Finset.sum_filter]
    refine Finset.sum_congr rfl fun a ha => ?_
    split_ifs with h
    · have : 0 < mixOf P a := by
        refine div_pos ?_ (by positivity)
        exact Finset.sum_pos' (fun i _ => hP i a ha) ⟨j, Finset.mem_univ _, lt_of_le_of_ne (hP j a ha) (Ne.symm h)⟩
      rw [Real.log_div h this.ne', Real.negMulLog]
      ring
    · rw [not_not.1 h]; simp
  simp only [e, Finset.sum_sub_distrib, Finset.sum_neg_distrib]
  have e2 : ∑ j, ∑ a ∈ S, P j a * Real.log (mixOf P a) = - (m * ∑ a ∈ S, Real.negMulLog (mixOf P a)) := by
    rw [Finset.sum_comm, Finset.mul_sum, ← Finset.sum_neg_distrib]
    refine Finset.sum_congr rfl fun a _ => ?_
    rw [← Finset.sum_mul, Real.negMulLog]
    have : ∑ j, P j a = m * mixOf P a := by unfold mixOf; field_simp
    rw [this]; ring
  rw [e2]
  field_simp
  ring

theorem asd_jsd_tendsto {S : Finset α} {m : ℕ} {L : ℕ → Fin m → List α} (hL : ∀ n j, ∀ w ∈ L n j, w ∈ S) {P : Fin m → α → ℝ}
    (hP : ∀ j, ∀ a ∈ S, Filter.Tendsto (fun n => freq (L n j) a) Filter.atTop (nhds (P j a))) :
    Filter.Tendsto (fun n => jsd (List.ofFn (L n))) Filter.atTop (nhds (jsdOf S P)) := by
  have h0 : ∀ j, ∀ a ∈ S, 0 ≤ P j a := fun j a ha => ge_of_tendsto' (hP j a ha) fun n => freq_nonneg _ _
  unfold jsdOf
  rw [asd_kl_mix h0]
  simp only [asd_jsd (hL _)]
  simp only [asd_kl_mix (S := S) (P := fun j a => freq (L _ j) a) fun j a _ => freq_nonneg _ _]
  refine Filter.Tendsto.sub (tendsto_finset_sum _ fun a ha => ?_) ((tendsto_finset_sum _ fun j _ => tendsto_finset_sum _ fun a ha => ?_).div_const _)
  · exact (Real.continuous_negMulLog.tendsto _).comp ((tendsto_finset_sum _ fun j _ => hP j a ha).div_const _)
  · exact (Real.continuous_negMulLog.tendsto _).comp (hP j a ha)

/-! ### the limits as divergences -/

theorem asd_kl_cross {S : Finset α} {p q : α → ℝ} (hc : ∀ a ∈ S, p a ≠ 0 → q a ≠ 0) :
    crossOf S p q - shannon S p = klOf S p q := by
  unfold crossOf shannon klOf
  rw [Finset.sum_filter, Finset.sum_filter, neg_sub_neg, ← Finset.sum_sub_distrib]
  refine Finset.sum_congr rfl fun a ha => ?_
  by_cases h : p a = 0
  · simp [h]
  · rw [if_pos (hc a ha h), if_pos h, Real.log_div h (hc a ha h)]; ring

theorem asd_kl_nonneg {S : Finset α} {p q : α → ℝ} (hp : ∀ a ∈ S, 0 ≤ p a) (hq : ∀ a ∈ S, 0 ≤ q a) (hs : ∑ a ∈ S, q a ≤ ∑ a ∈ S, p a)
    (hc : ∀ a ∈ S, p a ≠ 0 → q a ≠ 0) : 0 ≤ klOf S p q := by
  unfold klOf
  refine gibbs _ p q (fun a ha => hp a (Finset.mem_filter.1 ha).1) (fun a ha => ?_) ?_
  · have := Finset.mem_filter.1 ha
    exact lt_of_le_of_ne (hq a this.1) (Ne.symm (hc a this.1 this.2))
  · rw [Finset.sum_filter_ne_zero]
    exact (Finset.sum_le_sum_of_subset_of_nonneg (Finset.filter_subset _ _) fun a ha _ => hq a ha).trans hs

theorem asd_kl_zero {S : Finset α} {p q : α → ℝ} (hp : ∀ a ∈ S, 0 ≤ p a) (hq : ∀ a ∈ S, 0 ≤ q a) (hs : ∑ a ∈ S, q a = ∑ a ∈ S, p a)
    (hc : ∀ a ∈ S, p a ≠ 0 → q a ≠ 0) : klOf S p q = 0 ↔ ∀ a ∈ S, p a = q a := by
  constructor
  · intro h0
    have hl : ∑ a ∈ S with p a ≠ 0, q a ≤ ∑ a ∈ S with p a ≠ 0, p a := by
      rw [Finset.sum_filter_ne_zero]
      exact (Finset.sum_le_sum_of_subset_of_nonneg (Finset.filter_subset _ _) fun a ha _ => hq a ha).trans hs.le
    have h1 := gibbs_eq (S.filter (fun a => p a ≠ 0)) p q (fun a ha => hp a (Finset.mem_filter.1 ha).1) (fun a ha => by
      have := Finset.mem_filter.1 ha
      exact lt_of_le_of_ne (hq a this.1) (Ne.symm (hc a this.1 this.2))) hl h0
    have hle : ∀ a ∈ S, p a ≤ q a := fun a ha => by
      by_cases h : p a = 0
      · rw [h]; exact hq a ha
      · exact (h1 a (Finset.mem_filter.2 ⟨ha, h⟩)).le
    exact (Finset.sum_eq_sum_iff_of_le hle).1 hs.symm
  · intro h
    unfold klOf
    refine Finset.sum_eq_zero fun a ha => ?_
    have := Finset.mem_filter.1 ha
    rw [h a this.1, div_self (by rw [← h a this.1]; exact this.2), Real.log_one, mul_zero]

theorem asd_mix_ne {S : Finset α} {m : ℕ} {P : Fin m → α → ℝ} (hP : ∀ j, ∀ a ∈ S, 0 ≤ P j a) (j : Fin m) {a : α} (ha : a ∈ S)
    (h : P j a ≠ 0) : mixOf P a ≠ 0 := by
  have hm : 0 < m := j.pos
  refine (div_pos ?_ (by positivity)).ne'
  exact Finset.sum_pos' (fun i _ => hP i a ha) ⟨j, Finset.mem_univ _, lt_of_le_of_ne (hP j a ha) (Ne.symm h)⟩

theorem asd_jsd_limit {S : Finset α} {m : ℕ} (hm : 0 < m) {P : Fin m → α → ℝ} (hP : ∀ j, ∀ a ∈ S, 0 ≤ P j a) (h1 : ∀ j, ∑ a ∈ S, P j a = 1) :
    0 ≤ jsdOf S P ∧ (jsdOf S P = 0 ↔ ∀ i j, ∀ a ∈ S, P i a = P j a) := by
  have hm' : (0 : ℝ) < m := by exact_mod_cast hm
  have m0 : ∀ a ∈ S, 0 ≤ mixOf P a := fun a ha => div_nonneg (Finset.sum_nonneg fun j _ => hP j a ha) hm'.le
  have ms : ∑ a ∈ S, mixOf P a = 1 := by
    unfold mixOf
    rw [← Finset.sum_div, Finset.sum_comm]
    simp only [h1]
    simp [hm'.ne']
  have k0 : ∀ j, 0 ≤ klOf S (P j) (mixOf P) := fun j =>
    asd_kl_nonneg (hP j) m0 (by rw [ms, h1]) fun a ha h => asd_mix_ne hP j ha h
  have kz : ∀ j, klOf S (P j) (mixOf P) = 0 ↔ ∀ a ∈ S, P j a = mixOf P a := fun j =>
    asd_kl_zero (hP j) m0 (by rw [ms, h1]) fun a ha h => asd_mix_ne hP j ha h
  refine ⟨div_nonneg (Finset.sum_nonneg fun j _ => k0 j) hm'.le, ?_⟩
  unfold jsdOf
  rw [div_eq_zero_iff, or_iff_left hm'.ne', Finset.sum_eq_zero_iff_of_nonneg fun j _ => k0 j]
  constructor
  · intro h i j a ha
    rw [(kz i).1 (h i (Finset.mem_univ _)) a ha, (kz j).1 (h j (Finset.mem_univ _)) a ha]
  · intro h j _
    refine (kz j).2 fun a ha => ?_
    unfold mixOf
    rw [Finset.sum_congr rfl fun i _ => h i j a ha]
    simp [hm'.ne']

end

section
variable {Ω : Type} [MeasurableSpace Ω] {μ : Measure Ω} {α : Type} [DecidableEq α]

theorem asd_law_nonneg {X : ℕ → Ω → α} {S : Finset α} {p : α → ℝ} {M : ℕ} (h : Sampling μ X S p M) : ∀ a ∈ S, 0 ≤ p a := fun a ha => by
  rw [← h.law 0 a ha]; exact measureReal_nonneg

theorem asd_law_sum [IsProbabilityMeasure μ] {X : ℕ → Ω → α} {S : Finset α} {p : α → ℝ} {M : ℕ} (h : Sampling μ X S p M) : ∑ a ∈ S, p a = 1 := by
  have e : ∑ a ∈ S, μ.real {ω | X 0 ω = a} = μ.real (⋃ a ∈ S, {ω | X 0 ω = a}) := by
    rw [measureReal_biUnion_finset]
    · intro a _ b _ hab
      exact Set.disjoint_left.2 fun ω h1 h2 => hab (h1.symm.trans h2)
    · exact fun a ha => h.measurable 0 a ha
  rw [← Finset.sum_congr rfl fun a ha => h.law 0 a ha, e]
  have : (⋃ a ∈ S, {ω | X 0 ω = a}) =ᵐ[μ] Set.univ := by
    filter_upwards [h.mem 0] with ω hω
    apply propext
    constructor
    · intro _; trivial
    · intro _
      exact Set.mem_biUnion hω rfl
  rw [measureReal_congr this]
  simp

/-- almost surely no symbol of probability zero is ever observed -/
theorem asd_zero [IsProbabilityMeasure μ] {X : ℕ → Ω → α} {S : Finset α} {p : α → ℝ} {M : ℕ} (h : Sampling μ X S p M) :
    ∀ᵐ ω ∂μ, ∀ a ∈ S, p a = 0 → ∀ n, a ∉ observed X n ω := by
  refine (ae_ball_iff S.countable_toSet).2 fun a ha => ?_
  by_cases hp : p a = 0
  · have : ∀ᵐ ω ∂μ, ∀ i, X i ω ≠ a := ae_all_iff.2 fun i => by
      have h1 := h.law i a ha
      rw [hp, measureReal_eq_zero_iff] at h1
      exact measure_eq_zero_iff_ae_notMem.1 h1
    filter_upwards [this] with ω hω
    intro _ n hn
    simp only [observed, List.mem_map] at hn
    obtain ⟨i, -, e⟩ := hn
    exact hω i e
  · exact Filter.Eventually.of_forall fun ω h => absurd h hp

end

end Verif
