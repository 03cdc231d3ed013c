import Verif.Spec.AlmostSure
import Verif.Props.Consistency
import Mathlib.Probability.Independence.Basic
import Mathlib.Probability.StrongLaw

/-!
# Lemmas for C94: relative frequencies converge almost surely
-/

namespace Verif

open Spec MeasureTheory ProbabilityTheory

/-- averages over residue classes -/
theorem as_sum_blocks (u : ℕ → ℝ) (M q : ℕ) :
    ∑ t ∈ Finset.range (M * q), u t = ∑ j ∈ Finset.range M, ∑ i ∈ Finset.range q, u (j + M * i) := by
  induction q with
  | zero => simp
  | succ q ih =>
    rw [Nat.mul_succ, Finset.sum_range_add, ih, ← Finset.sum_add_distrib]
    refine Finset.sum_congr rfl fun j _ => ?_
    rw [Finset.sum_range_succ, Nat.add_comm j]

theorem as_average (u : ℕ → ℝ) (hu : ∀ t, 0 ≤ u t) (M : ℕ) (hM : 0 < M) (L : ℝ)
    (h : ∀ j < M, Filter.Tendsto (fun n : ℕ => (∑ i ∈ Finset.range n, u (j + M * i)) / n) Filter.atTop (nhds L)) :
    Filter.Tendsto (fun n : ℕ => (∑ t ∈ Finset.range n, u t) / n) Filter.atTop (nhds L) := by
  have hM' : (0 : ℝ) < M := by exact_mod_cast hM
  refine tendsto_div_of_monotone_of_exists_subseq_tendsto_div (fun n => ∑ t ∈ Finset.range n, u t) L ?_ ?_
  · intro m n hmn
    exact Finset.sum_le_sum_of_subset_of_nonneg (by simpa using hmn) fun i _ _ => hu i
  · intro a ha
    refine ⟨fun n => M * n, ?_, ?_, ?_⟩
    · have h1 := Filter.eventually_ge_atTop (Nat.ceil (1 / (a - 1)))
      filter_upwards [h1] with n hn
      have h2 : 1 / (a - 1) ≤ n := (Nat.le_ceil _).trans (by exact_mod_cast hn)
      rw [div_le_iff₀ (by linarith)] at h2
      push_cast
      nlinarith
    · exact Filter.tendsto_id.const_mul_atTop' hM
    · have h2 : Filter.Tendsto (fun n : ℕ => (∑ j ∈ Finset.range M, (∑ i ∈ Finset.range n, u (j + M * i)) / n) / M) Filter.atTop
          (nhds ((∑ _j ∈ Finset.range M, L) / M)) :=
        (tendsto_finset_sum _ fun j hj => h j (Finset.mem_range.1 hj)).div_const _
      have e : (∑ _j ∈ Finset.range M, L) / M = L := by
        rw [Finset.sum_const, Finset.card_range, nsmul_eq_mul]; field_simp
      rw [e] at h2
      refine h2.congr fun n => ?_
      rw [as_sum_blocks, ← Finset.sum_div, div_div, mul_comm (n : ℝ)]
      push_cast
      rfl

section
variable {Ω : Type} [MeasurableSpace Ω] {μ : Measure Ω}

theorem as_ident [IsProbabilityMeasure μ] {A B : Set Ω} (hA : MeasurableSet A) (hB : MeasurableSet B) (h : μ.real A = μ.real B) :
    IdentDistrib (A.indicator (fun _ => (1 : ℝ))) (B.indicator (fun _ => (1 : ℝ))) μ μ := by
  have h' : μ A = μ B := (measureReal_eq_measureReal_iff (by simp) (by simp)).1 h
  have hc : μ Aᶜ = μ Bᶜ := by rw [prob_compl_eq_one_sub hA, prob_compl_eq_one_sub hB, h']
  have mA : Measurable (A.indicator (fun _ => (1 : ℝ))) := measurable_const.indicator hA
  have mB : Measurable (B.indicator (fun _ => (1 : ℝ))) := measurable_const.indicator hB
  refine ⟨mA.aemeasurable, mB.aemeasurable, ?_⟩
  ext s hs
  rw [Measure.map_apply mA hs, Measure.map_apply mB hs]
  classical
  have e : ∀ C : Set Ω, C.indicator (fun _ => (1 : ℝ)) ⁻¹' s = if (1 : ℝ) ∈ s then (if (0 : ℝ) ∈ s then Set.univ else C)
      else (if (0 : ℝ) ∈ s then Cᶜ else ∅) := by
    intro C
    ext ω
    by_cases hω : ω ∈ C <;> split_ifs <;> simp_all [Set.indicator]
  rw [e, e]
  split_ifs <;> simp [h', hc]

theorem as_indep [IsProbabilityMeasure μ] {A B : Set Ω} (hA : MeasurableSet A) (hB : MeasurableSet B) (h : μ.real (A ∩ B) = μ.real A * μ.real B) :
    IndepFun (A.indicator (fun _ => (1 : ℝ))) (B.indicator (fun _ => (1 : ℝ))) μ := by
  have h1 : IndepSet A B μ := by
    rw [indepSet_iff_measure_inter_eq_mul hA hB μ]
    refine (ENNReal.toReal_eq_toReal_iff' (by simp) (ENNReal.mul_ne_top (by simp) (by simp))).1 ?_
    rw [ENNReal.toReal_mul]; exact h
  have m : ∀ C : Set Ω, MeasurableSpace.comap (C.indicator (fun _ => (1 : ℝ))) inferInstance ≤ MeasurableSpace.generateFrom {C} := fun C => by
    let _ : MeasurableSpace Ω := MeasurableSpace.generateFrom {C}
    exact Measurable.comap_le (measurable_const.indicator (MeasurableSpace.measurableSet_generateFrom rfl))
  exact indep_of_indep_of_le_left (indep_of_indep_of_le_right h1 (m B)) (m A)

variable {α : Type} [DecidableEq α]

theorem as_freq_sum (X : ℕ → Ω → α) (n : ℕ) (ω : Ω) (a : α) :
    freq (observed X n ω) a = (∑ t ∈ Finset.range n, ({ω | X t ω = a} : Set Ω).indicator (fun _ => (1 : ℝ)) ω) / n := by
  have hl : (observed X n ω).length = n := by simp [observed]
  unfold freq
  rw [hl]
  congr 1
  clear hl
  induction n with
  | zero => simp [observed, cnt]
  | succ n ih =>
    rw [Finset.sum_range_succ, ← ih]
    have : observed X (n + 1) ω = observed X n ω ++ [X n ω] := by simp [observed, List.range_succ]
    rw [this]
    by_cases h : X n ω = a <;> simp [cnt, Set.indicator, h]

/-- relative frequencies converge almost surely to the probabilities -/
theorem as_freq [IsProbabilityMeasure μ] {X : ℕ → Ω → α} {S : Finset α} {p : α → ℝ} {M : ℕ} (hM : 0 < M) (h : Sampling μ X S p M) :
    ∀ᵐ ω ∂μ, (∀ n, ∀ a ∈ observed X n ω, a ∈ S) ∧
      ∀ a ∈ S, Filter.Tendsto (fun n => freq (observed X n ω) a) Filter.atTop (nhds (p a)) := by
  have h1 : ∀ᵐ ω ∂μ, ∀ i, X i ω ∈ S := ae_all_iff.2 h.mem
  have h2 : ∀ a ∈ S, ∀ j < M, ∀ᵐ ω ∂μ, Filter.Tendsto
      (fun n : ℕ => (∑ i ∈ Finset.range n, ({ω | X (j + M * i) ω = a} : Set Ω).indicator (fun _ => (1 : ℝ)) ω) / n) Filter.atTop (nhds (p a)) := by
    intro a ha j _
    have hA : ∀ i, MeasurableSet {ω | X i ω = a} := fun i => h.measurable i a ha
    have := strong_law_ae_real (μ := μ) (fun i => ({ω | X (j + M * i) ω = a} : Set Ω).indicator (fun _ => (1 : ℝ))) ?_ ?_ ?_
    · have e : ∫ ω, ({ω | X (j + M * 0) ω = a} : Set Ω).indicator (fun _ => (1 : ℝ)) ω ∂μ = p a := by
        rw [integral_indicator_const _ (hA _), smul_eq_mul, mul_one, h.law _ a ha]
      rw [e] at this
      exact this
    · exact (integrable_const 1).indicator (hA _)
    · have key : ∀ i i', i < i' → IndepFun (({ω | X (j + M * i) ω = a} : Set Ω).indicator (fun _ => (1 : ℝ)))
          (({ω | X (j + M * i') ω = a} : Set Ω).indicator (fun _ => (1 : ℝ))) μ := by
        intro i i' hi
        have hind := h.indep (j + M * i) (j + M * i') (by
          have := Nat.mul_le_mul_left M (Nat.succ_le_of_lt hi); rw [Nat.mul_succ] at this; omega)
        refine as_indep (hA _) (hA _) ?_
        rw [h.law _ a ha, h.law _ a ha]
        exact hind a ha a ha
      intro i i' hi
      rcases lt_or_gt_of_ne hi with hl | hl
      · exact key i i' hl
      · exact (key i' i hl).symm
    · intro i
      exact as_ident (hA _) (hA _) ((h.law _ a ha).trans (h.law _ a ha).symm)
  have h3 : ∀ᵐ ω ∂μ, ∀ a ∈ S, ∀ j < M, Filter.Tendsto
      (fun n : ℕ => (∑ i ∈ Finset.range n, ({ω | X (j + M * i) ω = a} : Set Ω).indicator (fun _ => (1 : ℝ)) ω) / n) Filter.atTop (nhds (p a)) := by
    refine (ae_ball_iff S.countable_toSet).2 fun a ha => ?_
    refine (ae_ball_iff (Set.to_countable {j | j < M})).2 fun j hj => h2 a ha j hj
  filter_upwards [h1, h3] with ω o1 o3
  refine ⟨fun n a ha => ?_, fun a ha => ?_⟩
  · simp only [observed, List.mem_map] at ha
    obtain ⟨i, -, rfl⟩ := ha
    exact o1 i
  · simp only [as_freq_sum]
    exact as_average _ (fun t => Set.indicator_nonneg (fun _ _ => zero_le_one) _) M hM _ (o3 a ha)

end

end Verif
