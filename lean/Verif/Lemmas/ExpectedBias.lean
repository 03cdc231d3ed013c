import Verif.Props.AlmostSure
import Mathlib.Analysis.SpecialFunctions.Log.NegMulLog

/-!
# Lemmas for C101: expectation of the plug-in entropy
-/

namespace Verif

open Spec MeasureTheory ProbabilityTheory

section core
variable {Ω : Type} [MeasurableSpace Ω] {μ : Measure Ω} {M : ℕ}

/-- relative frequency of events -/
noncomputable def ebF (A : ℕ → Set Ω) (n : ℕ) (ω : Ω) : ℝ := (∑ i ∈ Finset.range n, (A i).indicator (fun _ => (1 : ℝ)) ω) / n

theorem ebF_nonneg (A : ℕ → Set Ω) (n : ℕ) (ω : Ω) : 0 ≤ ebF A n ω :=
  div_nonneg (Finset.sum_nonneg fun i _ => Set.indicator_nonneg (fun _ _ => zero_le_one) _) (Nat.cast_nonneg _)

theorem ebF_le_one (A : ℕ → Set Ω) {n : ℕ} (hn : 0 < n) (ω : Ω) : ebF A n ω ≤ 1 := by
  unfold ebF
  rw [div_le_one (by exact_mod_cast hn)]
  calc _ ≤ ∑ i ∈ Finset.range n, (1 : ℝ) := Finset.sum_le_sum fun i _ => Set.indicator_le_self' (fun _ _ => zero_le_one) _
    _ = n := by simp

theorem ebF_measurable {A : ℕ → Set Ω} (hA : ∀ i, MeasurableSet (A i)) (n : ℕ) : Measurable (ebF A n) := by
  unfold ebF
  exact (Finset.measurable_fun_sum _ fun i _ => measurable_const.indicator (hA i)).div_const _

variable [IsProbabilityMeasure μ]

theorem eb_integrable {A : ℕ → Set Ω} (hA : ∀ i, MeasurableSet (A i)) {n : ℕ} (hn : 0 < n) {g : ℝ → ℝ} (hg : Continuous g) :
    Integrable (fun ω => g (ebF A n ω)) μ := by
  obtain ⟨C, hC⟩ := (isCompact_Icc (a := (0 : ℝ)) (b := 1)).exists_bound_of_continuousOn hg.continuousOn
  exact Integrable.of_bound (hg.measurable.comp (ebF_measurable hA n)).aestronglyMeasurable C
    (Filter.Eventually.of_forall fun ω => hC _ ⟨ebF_nonneg A n ω, ebF_le_one A hn ω⟩)

theorem eb_mean {A : ℕ → Set Ω} (hA : ∀ i, MeasurableSet (A i)) {p : ℝ} (h1 : ∀ i, μ.real (A i) = p) {n : ℕ} (hn : 0 < n) :
    ∫ ω, ebF A n ω ∂μ = p := by
  have hn' : (n : ℝ) ≠ 0 := by exact_mod_cast hn.ne'
  unfold ebF
  rw [integral_div, integral_finset_sum _ fun i _ => (integrable_const (1 : ℝ)).indicator (hA i)]
  simp only [integral_indicator_const _ (hA _), smul_eq_mul, mul_one, h1, Finset.sum_const, Finset.card_range, nsmul_eq_mul]
  field_simp

/-- number of indices closer than `M` to `i` -/
theorem eb_near (n i : ℕ) : ((Finset.range n).filter (fun j => ¬ (i + M ≤ j ∨ j + M ≤ i))).card ≤ 2 * M - 1 := by
  have : (Finset.range n).filter (fun j => ¬ (i + M ≤ j ∨ j + M ≤ i)) ⊆ Finset.Ico (i + 1 - M) (i + M) := by
    intro j hj
    rw [Finset.mem_filter] at hj
    rw [Finset.mem_Ico]
    omega
  refine (Finset.card_le_card this).trans ?_
  rw [Nat.card_Ico]
  omega

theorem eb_second {A : ℕ → Set Ω} (hA : ∀ i, MeasurableSet (A i)) {p : ℝ} (h1 : ∀ i, μ.real (A i) = p)
    (h2 : ∀ i j, i + M ≤ j → μ.real (A i ∩ A j) = p * p) {n : ℕ} (hn : 0 < n) (hM : 0 < M) :
    ∫ ω, ebF A n ω ^ 2 ∂μ ≤ p ^ 2 + (2 * M - 1) * (p * (1 - p)) / n := by
  have hn' : (0 : ℝ) < n := by exact_mod_cast hn
  have hp0 : 0 ≤ p := h1 0 ▸ measureReal_nonneg
  have hp1 : p ≤ 1 := h1 0 ▸ measureReal_le_one
  have e : ∀ ω, ebF A n ω ^ 2 = (∑ i ∈ Finset.range n, ∑ j ∈ Finset.range n, (A i ∩ A j).indicator (fun _ => (1 : ℝ)) ω) / n ^ 2 := by
    intro ω
    unfold ebF
    rw [div_pow, sq (∑ i ∈ Finset.range n, _), Finset.sum_mul_sum]
    congr 1
    refine Finset.sum_congr rfl fun i _ => Finset.sum_congr rfl fun j _ => ?_
    by_cases hi : ω ∈ A i <;> by_cases hj : ω ∈ A j <;> simp [Set.indicator, hi, hj]
  simp only [e]
  rw [integral_div, integral_finset_sum _ fun i _ => integrable_finset_sum _ fun j _ => (integrable_const (1 : ℝ)).indicator ((hA i).inter (hA j))]
  have inner : ∀ i ∈ Finset.range n, ∫ ω, ∑ j ∈ Finset.range n, (A i ∩ A j).indicator (fun _ => (1 : ℝ)) ω ∂μ ≤
      n * p ^ 2 + (2 * M - 1) * (p * (1 - p)) := by
    intro i _
    rw [integral_finset_sum _ fun j _ => (integrable_const (1 : ℝ)).indicator ((hA i).inter (hA j))]
    simp only [integral_indicator_const _ ((hA i).inter (hA _)), smul_eq_mul, mul_one]
    have term : ∀ j ∈ Finset.range n, μ.real (A i ∩ A j) ≤ p ^ 2 + if ¬ (i + M ≤ j ∨ j + M ≤ i) then p * (1 - p) else 0 := by
      intro j _
      by_cases hc : i + M ≤ j ∨ j + M ≤ i
      · rw [if_neg (not_not.2 hc)]
        rcases hc with hc | hc
        · rw [h2 i j hc]; nlinarith
        · rw [Set.inter_comm, h2 j i hc]; nlinarith
      · rw [if_pos hc]
        have : μ.real (A i ∩ A j) ≤ p := h1 i ▸ measureReal_mono Set.inter_subset_left
        nlinarith
    refine (Finset.sum_le_sum term).trans ?_
    rw [Finset.sum_add_distrib, ← Finset.sum_filter, Finset.sum_const, Finset.sum_const, Finset.card_range, nsmul_eq_mul, nsmul_eq_mul]
    have hcard : (((Finset.range n).filter (fun j => ¬ (i + M ≤ j ∨ j + M ≤ i))).card : ℝ) ≤ 2 * M - 1 := by
      have := eb_near (M := M) n i
      have h3 : ((2 * M - 1 : ℕ) : ℝ) = 2 * M - 1 := by rw [Nat.cast_sub (by omega)]; push_cast; ring
      rw [← h3]; exact_mod_cast this
    have hpp : 0 ≤ p * (1 - p) := mul_nonneg hp0 (by linarith)
    gcongr
  have tot := Finset.sum_le_sum inner
  rw [Finset.sum_const, Finset.card_range, nsmul_eq_mul] at tot
  rw [div_le_iff₀ (by positivity)]
  refine tot.trans (le_of_eq ?_)
  field_simp

/-- the expected summand of the plug-in entropy -/
theorem eb_core {A : ℕ → Set Ω} (hA : ∀ i, MeasurableSet (A i)) {p : ℝ} (h1 : ∀ i, μ.real (A i) = p)
    (h2 : ∀ i j, i + M ≤ j → μ.real (A i ∩ A j) = p * p) {n : ℕ} (hn : 0 < n) (hM : 0 < M) :
    Integrable (fun ω => ebF A n ω * Real.log (ebF A n ω)) μ ∧ p * Real.log p ≤ ∫ ω, ebF A n ω * Real.log (ebF A n ω) ∂μ ∧
      ∫ ω, ebF A n ω * Real.log (ebF A n ω) ∂μ ≤ p * Real.log p + (2 * M - 1) * (1 - p) / n := by
  have hn' : (0 : ℝ) < n := by exact_mod_cast hn
  have hp0 : 0 ≤ p := h1 0 ▸ measureReal_nonneg
  have hp1 : p ≤ 1 := h1 0 ▸ measureReal_le_one
  have hM' : (1 : ℝ) ≤ M := by exact_mod_cast hM
  have hI : Integrable (fun ω => ebF A n ω * Real.log (ebF A n ω)) μ := eb_integrable hA hn Real.continuous_mul_log
  have hI1 : Integrable (fun ω => ebF A n ω) μ := eb_integrable hA hn continuous_id
  have hI2 : Integrable (fun ω => ebF A n ω ^ 2) μ := eb_integrable hA hn (continuous_pow 2)
  refine ⟨hI, ?_⟩
  rcases hp0.eq_or_lt with rfl | hp
  · have hz : ∀ᵐ ω ∂μ, ebF A n ω = 0 := by
      have hnull : ∀ᵐ ω ∂μ, ∀ i, ω ∉ A i := ae_all_iff.2 fun i => by
        have : μ (A i) = 0 := by
          have := h1 i
          rwa [measureReal_eq_zero_iff] at this
        exact measure_eq_zero_iff_ae_notMem.1 this
      filter_upwards [hnull] with ω hω
      unfold ebF
      simp [Set.indicator, hω]
    have : ∫ ω, ebF A n ω * Real.log (ebF A n ω) ∂μ = 0 := by
      rw [integral_congr_ae (g := fun _ => (0 : ℝ)) (by filter_upwards [hz] with ω hω; simp [hω])]
      simp
    rw [this]
    simp only [zero_mul, le_refl, zero_add, sub_zero, mul_one, true_and]
    exact div_nonneg (by linarith) hn'.le
  · have lo : ∀ ω, Real.log p * ebF A n ω + (ebF A n ω - p) ≤ ebF A n ω * Real.log (ebF A n ω) := by
      intro ω
      rcases (ebF_nonneg A n ω).eq_or_lt with h0 | h0
      · rw [← h0]; simp; exact hp.le
      · have := Real.log_le_sub_one_of_pos (div_pos hp h0)
        rw [Real.log_div hp.ne' h0.ne'] at this
        have h3 := mul_le_mul_of_nonneg_left this h0.le
        rw [mul_sub, mul_sub, mul_div_cancel₀ _ h0.ne'] at h3
        nlinarith
    have hi : ∀ ω, ebF A n ω * Real.log (ebF A n ω) ≤ Real.log p * ebF A n ω + (ebF A n ω ^ 2 / p - ebF A n ω) := by
      intro ω
      rcases (ebF_nonneg A n ω).eq_or_lt with h0 | h0
      · rw [← h0]; simp
      · have := Real.log_le_sub_one_of_pos (div_pos h0 hp)
        rw [Real.log_div h0.ne' hp.ne'] at this
        have h3 := mul_le_mul_of_nonneg_left this h0.le
        have h4 : ebF A n ω * (ebF A n ω / p - 1) = ebF A n ω ^ 2 / p - ebF A n ω := by ring
        rw [h4] at h3
        nlinarith
    have j1 : Integrable (fun ω => ebF A n ω - p) μ := hI1.sub (integrable_const p)
    have j2 : Integrable (fun ω => ebF A n ω ^ 2 / p - ebF A n ω) μ := (hI2.div_const p).sub hI1
    have j3 : Integrable (fun ω => Real.log p * ebF A n ω + (ebF A n ω - p)) μ := (hI1.const_mul (Real.log p)).add j1
    have j4 : Integrable (fun ω => Real.log p * ebF A n ω + (ebF A n ω ^ 2 / p - ebF A n ω)) μ := (hI1.const_mul (Real.log p)).add j2
    constructor
    · have := integral_mono (μ := μ) j3 hI lo
      rw [integral_add (hI1.const_mul _) j1, integral_const_mul, integral_sub hI1 (integrable_const p),
        eb_mean hA h1 hn] at this
      simp at this
      linarith
    · have := integral_mono (μ := μ) hI j4 hi
      rw [integral_add (hI1.const_mul _) j2, integral_const_mul, integral_sub (hI2.div_const p) hI1, integral_div,
        eb_mean hA h1 hn] at this
      have s := eb_second hA h1 h2 hn hM
      have s2 : (∫ ω, ebF A n ω ^ 2 ∂μ) / p ≤ p + (2 * M - 1) * (1 - p) / n := by
        rw [div_le_iff₀ hp]
        refine s.trans (le_of_eq ?_)
        field_simp
      linarith

end core

section entropy
variable {Ω : Type} [MeasurableSpace Ω] {μ : Measure Ω} [IsProbabilityMeasure μ] {M : ℕ} {α β : Type} [DecidableEq α] [DecidableEq β]

/-- the event that observation `i` is mapped to `b` -/
def ebEvent (X : ℕ → Ω → α) (S : Finset α) (f : α → β) (b : β) (i : ℕ) : Set Ω := ⋃ a ∈ S.filter (fun a => f a = b), {ω | X i ω = a}

/-- events `E b i`, "observation `i` is `b`", with the probabilities `q b`, independent when `M` steps apart -/
structure EbEvents (μ : Measure Ω) (E : β → ℕ → Set Ω) (B : Finset β) (q : β → ℝ) (M : ℕ) : Prop where
  meas : ∀ b i, MeasurableSet (E b i)
  law : ∀ b i, μ.real (E b i) = q b
  indep : ∀ b c i j, i + M ≤ j → μ.real (E b i ∩ E c j) = q b * q c
  disj : ∀ b c i, b ≠ c → Disjoint (E b i) (E c i)
  total : ∑ b ∈ B, q b = 1
  cover : ∀ᵐ ω ∂μ, ∀ i, ∃ b ∈ B, ω ∈ E b i

theorem eb_events {X : ℕ → Ω → α} {S : Finset α} {p : α → ℝ} (h : Sampling μ X S p M) (f : α → β) :
    EbEvents μ (ebEvent X S f) (S.image f) (fun b => ∑ a ∈ S with f a = b, p a) M := by
  set q : β → ℝ := fun b => ∑ a ∈ S with f a = b, p a with hq
  have hmeas : ∀ b i, MeasurableSet (ebEvent X S f b i) := fun b i =>
    Finset.measurableSet_biUnion _ fun a ha => h.measurable i a (Finset.mem_filter.1 ha).1
  have hlaw : ∀ b i, μ.real (ebEvent X S f b i) = q b := by
    intro b i
    unfold ebEvent
    rw [measureReal_biUnion_finset (f := fun a => {ω | X i ω = a}) (fun a _ a' _ hne => Set.disjoint_left.2 fun ω h1 h2 => hne ((show X i ω = a from h1).symm.trans h2))
      (fun a ha => h.measurable i a (Finset.mem_filter.1 ha).1)]
    exact Finset.sum_congr rfl fun a ha => h.law i a (Finset.mem_filter.1 ha).1
  have hind : ∀ b c i j, i + M ≤ j → μ.real (ebEvent X S f b i ∩ ebEvent X S f c j) = q b * q c := by
    intro b d i j hij
    have e : ebEvent X S f b i ∩ ebEvent X S f d j =
        ⋃ w ∈ S.filter (fun a => f a = b) ×ˢ S.filter (fun a => f a = d), {ω | X i ω = w.1 ∧ X j ω = w.2} := by
      ext ω
      simp only [ebEvent, Set.mem_inter_iff, Set.mem_iUnion, Finset.mem_filter, Finset.mem_product, Set.mem_ofPred_eq]
      constructor
      · rintro ⟨⟨a, ha, ea⟩, ⟨c, hc, ec⟩⟩
        exact ⟨(a, c), ⟨ha, hc⟩, ea, ec⟩
      · rintro ⟨w, ⟨ha, hc⟩, ea, ec⟩
        exact ⟨⟨w.1, ha, ea⟩, ⟨w.2, hc, ec⟩⟩
    rw [e, measureReal_biUnion_finset]
    · rw [hq, Finset.sum_mul_sum, ← Finset.sum_product']
      refine Finset.sum_congr rfl fun w hw => ?_
      rw [Finset.mem_product, Finset.mem_filter, Finset.mem_filter] at hw
      exact h.indep i j hij _ hw.1.1 _ hw.2.1
    · intro w _ w' _ hne
      refine Set.disjoint_left.2 fun ω h1 h2 => hne ?_
      exact Prod.ext (h1.1.symm.trans h2.1) (h1.2.symm.trans h2.2)
    · intro w hw
      rw [Finset.mem_product, Finset.mem_filter, Finset.mem_filter] at hw
      exact (h.measurable i _ hw.1.1).inter (h.measurable j _ hw.2.1)
  have hone : ∑ b ∈ S.image f, q b = 1 := by
    have e1 : ∑ b ∈ S.image f, q b = ∑ a ∈ S, p a := by
      rw [hq]
      exact Finset.sum_fiberwise_of_maps_to (fun a ha => Finset.mem_image_of_mem f ha) p
    rw [e1]
    have : μ.real (⋃ a ∈ S, {ω | X 0 ω = a}) = ∑ a ∈ S, p a := by
      rw [measureReal_biUnion_finset (f := fun a => {ω | X 0 ω = a}) (fun a _ a' _ hne => Set.disjoint_left.2 fun ω h1 h2 => hne ((show X 0 ω = a from h1).symm.trans h2))
        (fun a ha => h.measurable 0 a ha)]
      exact Finset.sum_congr rfl fun a ha => h.law 0 a ha
    rw [← this]
    have hm : ∀ᵐ ω ∂μ, ω ∈ (⋃ a ∈ S, {ω | X 0 ω = a} : Set Ω) := by
      filter_upwards [h.mem 0] with ω hω
      simp only [Set.mem_iUnion]
      exact ⟨_, hω, rfl⟩
    have hu : (⋃ a ∈ S, {ω | X 0 ω = a} : Set Ω) =ᵐ[μ] Set.univ := by
      filter_upwards [hm] with ω hω
      exact propext ⟨fun _ => trivial, fun _ => hω⟩
    rw [measureReal_congr hu]
    simp
  refine ⟨hmeas, hlaw, hind, fun b c i hne => ?_, hone, ?_⟩
  · refine Set.disjoint_left.2 fun ω h1 h2 => ?_
    simp only [ebEvent, Set.mem_iUnion, Finset.mem_filter, Set.mem_ofPred_eq] at h1 h2
    obtain ⟨a, ⟨_, e1⟩, e2⟩ := h1
    obtain ⟨a', ⟨_, e1'⟩, e2'⟩ := h2
    exact hne (e1.symm.trans ((congrArg f (e2.symm.trans e2')).trans e1'))
  · filter_upwards [ae_all_iff.2 h.mem] with ω hω i
    refine ⟨f (X i ω), Finset.mem_image_of_mem f (hω i), ?_⟩
    simp only [ebEvent, Set.mem_iUnion, Finset.mem_filter, Set.mem_ofPred_eq]
    exact ⟨_, ⟨hω i, rfl⟩, rfl⟩

theorem eb_entropy_eq {X : ℕ → Ω → α} {S : Finset α} {p : α → ℝ} (h : Sampling μ X S p M) (f : α → β) (n : ℕ) :
    ∀ᵐ ω ∂μ, entropy ((observed X n ω).map f) =
      - ∑ b ∈ S.image f, ebF (ebEvent X S f b) n ω * Real.log (ebF (ebEvent X S f b) n ω) := by
  filter_upwards [ae_all_iff.2 h.mem] with ω hω
  have hfreq : ∀ b, freq ((observed X n ω).map f) b = ebF (ebEvent X S f b) n ω := by
    intro b
    rw [observed_map, as_freq_sum]
    unfold ebF
    congr 1
    refine Finset.sum_congr rfl fun i _ => ?_
    have : ω ∈ ({ω | f (X i ω) = b} : Set Ω) ↔ ω ∈ ebEvent X S f b i := by
      simp only [ebEvent, Set.mem_iUnion, Finset.mem_filter, Set.mem_ofPred_eq]
      constructor
      · intro e; exact ⟨X i ω, ⟨hω i, e⟩, rfl⟩
      · rintro ⟨a, ⟨_, e⟩, ea⟩; rw [ea, e]
    by_cases hc : ω ∈ ebEvent X S f b i
    · rw [Set.indicator_of_mem (this.2 hc), Set.indicator_of_mem hc]
    · rw [Set.indicator_of_notMem (fun hh => hc (this.1 hh)), Set.indicator_of_notMem hc]
  unfold entropy
  congr 1
  rw [Finset.sum_subset (s₂ := S.image f)]
  · exact Finset.sum_congr rfl fun b _ => by rw [hfreq]
  · intro b hb
    rw [List.mem_toFinset, List.mem_map] at hb
    obtain ⟨a, ha, rfl⟩ := hb
    simp only [observed, List.mem_map] at ha
    obtain ⟨i, -, rfl⟩ := ha
    exact Finset.mem_image_of_mem f (hω i)
  · intro b _ hb
    have : cnt ((observed X n ω).map f) b = 0 := by
      by_contra hc
      exact hb (List.mem_toFinset.2 (cnt_pos_iff.1 (Nat.pos_of_ne_zero hc)))
    rw [freq, this]; simp

/-- **expected plug-in entropy** of a function of the observations -/
theorem eb_entropy {X : ℕ → Ω → α} {S : Finset α} {p : α → ℝ} (hM : 0 < M) (h : Sampling μ X S p M) (f : α → β) {n : ℕ} (hn : 0 < n) :
    Integrable (fun ω => entropy ((observed X n ω).map f)) μ ∧
      ∫ ω, entropy ((observed X n ω).map f) ∂μ ≤ shannonOf S p f ∧
      shannonOf S p f - (2 * M - 1) * ((S.image f).card - 1) / n ≤ ∫ ω, entropy ((observed X n ω).map f) ∂μ := by
  have ev := eb_events h f
  set q : β → ℝ := fun b => ∑ a ∈ S with f a = b, p a with hq
  have hae := eb_entropy_eq h f n
  have hone := ev.total
  have core := fun b => eb_core (ev.meas b) (ev.law b) (ev.indep b b) hn hM
  have hint : Integrable (fun ω => - ∑ b ∈ S.image f, ebF (ebEvent X S f b) n ω * Real.log (ebF (ebEvent X S f b) n ω)) μ :=
    (integrable_finset_sum _ fun b _ => (core b).1).neg
  have hval : ∫ ω, entropy ((observed X n ω).map f) ∂μ =
      - ∑ b ∈ S.image f, ∫ ω, ebF (ebEvent X S f b) n ω * Real.log (ebF (ebEvent X S f b) n ω) ∂μ := by
    rw [integral_congr_ae hae, integral_neg, integral_finset_sum _ fun b _ => (core b).1]
  refine ⟨hint.congr (hae.mono fun ω e => e.symm), ?_, ?_⟩
  · rw [hval]
    unfold shannonOf shannon
    exact neg_le_neg (Finset.sum_le_sum fun b _ => (core b).2.1)
  · rw [hval]
    unfold shannonOf shannon
    have up := Finset.sum_le_sum (s := S.image f) fun b _ => (core b).2.2
    rw [Finset.sum_add_distrib] at up
    have e2 : ∑ b ∈ S.image f, (2 * (M : ℝ) - 1) * (1 - q b) / n = (2 * M - 1) * ((S.image f).card - 1) / n := by
      rw [← Finset.sum_div, ← Finset.mul_sum, Finset.sum_sub_distrib, hone]
      simp
    rw [e2] at up
    linarith

/-- squared mean of a centred function of the observations -/
theorem eb_linear {E : β → ℕ → Set Ω} {B : Finset β} {q : β → ℝ} (ev : EbEvents μ E B q M) (hM : 0 < M) (ψ : β → ℝ) (h0 : ∑ b ∈ B, q b * ψ b = 0)
    {n : ℕ} (hn : 0 < n) :
    Integrable (fun ω => (∑ b ∈ B, ψ b * ebF (E b) n ω) ^ 2) μ ∧
      ∫ ω, (∑ b ∈ B, ψ b * ebF (E b) n ω) ^ 2 ∂μ ≤ (2 * M - 1) * (∑ b ∈ B, q b * ψ b ^ 2) / n := by
  have hn' : (0 : ℝ) < n := by exact_mod_cast hn
  set Z : ℕ → Ω → ℝ := fun i ω => ∑ b ∈ B, ψ b * (E b i).indicator (fun _ => (1 : ℝ)) ω with hZ
  set V := ∑ b ∈ B, q b * ψ b ^ 2 with hV
  have hsum : ∀ ω, ∑ b ∈ B, ψ b * ebF (E b) n ω = (∑ i ∈ Finset.range n, Z i ω) / n := by
    intro ω
    simp only [ebF, hZ]
    rw [Finset.sum_comm, Finset.sum_div]
    refine Finset.sum_congr rfl fun b _ => ?_
    rw [← Finset.mul_sum]; ring
  have hprod : ∀ i j ω, Z i ω * Z j ω = ∑ b ∈ B, ∑ c ∈ B, (E b i ∩ E c j).indicator (fun _ => ψ b * ψ c) ω := by
    intro i j ω
    simp only [hZ]
    rw [Finset.sum_mul_sum]
    refine Finset.sum_congr rfl fun b _ => Finset.sum_congr rfl fun c _ => ?_
    by_cases hb : ω ∈ E b i <;> by_cases hc : ω ∈ E c j <;> simp [Set.indicator, hb, hc]
  have hint : ∀ i j, Integrable (fun ω => Z i ω * Z j ω) μ := by
    intro i j
    simp only [hprod]
    exact integrable_finset_sum _ fun b _ => integrable_finset_sum _ fun c _ => (integrable_const _).indicator ((ev.meas b i).inter (ev.meas c j))
  have hval : ∀ i j, ∫ ω, Z i ω * Z j ω ∂μ = ∑ b ∈ B, ∑ c ∈ B, μ.real (E b i ∩ E c j) * (ψ b * ψ c) := by
    intro i j
    simp only [hprod]
    rw [integral_finset_sum _ fun b _ => integrable_finset_sum _ fun c _ => (integrable_const _).indicator ((ev.meas b i).inter (ev.meas c j))]
    refine Finset.sum_congr rfl fun b _ => ?_
    rw [integral_finset_sum _ fun c _ => (integrable_const _).indicator ((ev.meas b i).inter (ev.meas c j))]
    refine Finset.sum_congr rfl fun c _ => ?_
    rw [integral_indicator_const _ ((ev.meas b i).inter (ev.meas c j)), smul_eq_mul]
  have hfar : ∀ i j, i + M ≤ j → ∫ ω, Z i ω * Z j ω ∂μ = 0 := by
    intro i j hij
    rw [hval]
    have : ∑ b ∈ B, ∑ c ∈ B, μ.real (E b i ∩ E c j) * (ψ b * ψ c) = (∑ b ∈ B, q b * ψ b) * ∑ c ∈ B, q c * ψ c := by
      rw [Finset.sum_mul_sum]
      refine Finset.sum_congr rfl fun b _ => Finset.sum_congr rfl fun c _ => ?_
      rw [ev.indep b c i j hij]; ring
    rw [this, h0, zero_mul]
  have hself : ∀ i, ∫ ω, Z i ω * Z i ω ∂μ = V := by
    intro i
    rw [hval, hV]
    refine Finset.sum_congr rfl fun b hb => ?_
    rw [Finset.sum_eq_single_of_mem b hb]
    · rw [Set.inter_self, ev.law]; ring
    · intro c _ hne
      rw [(ev.disj b c i hne.symm).inter_eq]; simp
  have hnear : ∀ i j, ∫ ω, Z i ω * Z j ω ∂μ ≤ V := by
    intro i j
    have hI : Integrable (fun ω => (Z i ω * Z i ω + Z j ω * Z j ω) / 2) μ := ((hint i i).add (hint j j)).div_const 2
    have := integral_mono (μ := μ) (hint i j) hI (fun ω => by nlinarith [sq_nonneg (Z i ω - Z j ω)])
    rw [integral_div, integral_add (hint i i) (hint j j), hself, hself] at this
    linarith
  have hV0 : 0 ≤ V := hself 0 ▸ integral_nonneg fun ω => mul_self_nonneg _
  have e : ∀ ω, (∑ b ∈ B, ψ b * ebF (E b) n ω) ^ 2 = (∑ i ∈ Finset.range n, ∑ j ∈ Finset.range n, Z i ω * Z j ω) / n ^ 2 := by
    intro ω
    rw [hsum, div_pow, sq (∑ i ∈ Finset.range n, Z i ω), Finset.sum_mul_sum]
  have hd : ∀ i, Integrable (fun ω => ∑ j ∈ Finset.range n, Z i ω * Z j ω) μ := fun i => integrable_finset_sum _ fun j _ => hint i j
  simp only [e]
  refine ⟨(integrable_finset_sum _ fun i _ => hd i).div_const _, ?_⟩
  rw [integral_div, integral_finset_sum _ fun i _ => hd i]
  have inner : ∀ i ∈ Finset.range n, ∫ ω, ∑ j ∈ Finset.range n, Z i ω * Z j ω ∂μ ≤ (2 * M - 1) * V := by
    intro i _
    rw [integral_finset_sum _ fun j _ => hint i j]
    have term : ∀ j ∈ Finset.range n, ∫ ω, Z i ω * Z j ω ∂μ ≤ if ¬ (i + M ≤ j ∨ j + M ≤ i) then V else 0 := by
      intro j _
      by_cases hc : i + M ≤ j ∨ j + M ≤ i
      · rw [if_neg (not_not.2 hc)]
        rcases hc with hc | hc
        · rw [hfar i j hc]
        · simp only [mul_comm (Z i _)]
          rw [hfar j i hc]
      · rw [if_pos hc]; exact hnear i j
    refine (Finset.sum_le_sum term).trans ?_
    rw [← Finset.sum_filter, Finset.sum_const, nsmul_eq_mul]
    have hcard : (((Finset.range n).filter (fun j => ¬ (i + M ≤ j ∨ j + M ≤ i))).card : ℝ) ≤ 2 * M - 1 := by
      have := eb_near (M := M) n i
      have h3 : ((2 * M - 1 : ℕ) : ℝ) = 2 * M - 1 := by rw [Nat.cast_sub (by omega)]; push_cast; ring
      rw [← h3]; exact_mod_cast this
    exact mul_le_mul_of_nonneg_right hcard hV0
  have tot := Finset.sum_le_sum inner
  rw [Finset.sum_const, Finset.card_range, nsmul_eq_mul] at tot
  rw [div_le_iff₀ (by positivity)]
  refine tot.trans (le_of_eq ?_)
  field_simp

/-- **mean absolute error** of the plug-in entropy of a function of the observations -/
theorem eb_error {X : ℕ → Ω → α} {S : Finset α} {p : α → ℝ} (hM : 0 < M) (h : Sampling μ X S p M) (f : α → β) {n : ℕ} (hn : 0 < n) :
    ∫ ω, |entropy ((observed X n ω).map f) - shannonOf S p f| ∂μ ≤
      Real.sqrt ((2 * M - 1) * spreadOf S p f / n) + (2 * M - 1) * ((S.image f).card - 1) / n := by
  obtain ⟨hI, hup, hlow⟩ := eb_entropy hM h f hn
  have ev := eb_events h f
  have hae := eb_entropy_eq h f n
  set B := S.image f
  set q : β → ℝ := fun b => ∑ a ∈ S with f a = b, p a with hq
  set H := shannonOf S p f with hH
  set ψ : β → ℝ := fun b => Real.log (q b) + H with hψ
  have hHq : H = - ∑ b ∈ B, q b * Real.log (q b) := rfl
  have h0 : ∑ b ∈ B, q b * ψ b = 0 := by
    simp only [hψ, mul_add]
    rw [Finset.sum_add_distrib, ← Finset.sum_mul, ev.total, hHq]; ring
  obtain ⟨hT2, hT2le⟩ := eb_linear ev hM ψ h0 hn
  set T : Ω → ℝ := fun ω => ∑ b ∈ B, ψ b * ebF (ebEvent X S f b) n ω with hTdef
  have hFI : ∀ b, Integrable (fun ω => ebF (ebEvent X S f b) n ω) μ := fun b => eb_integrable (ev.meas b) hn continuous_id
  have hTI : Integrable T μ := integrable_finset_sum _ fun b _ => (hFI b).const_mul _
  have hTm : ∫ ω, T ω ∂μ = 0 := by
    rw [hTdef, integral_finset_sum _ fun b _ => (hFI b).const_mul _]
    rw [← h0]
    refine Finset.sum_congr rfl fun b _ => ?_
    rw [integral_const_mul, eb_mean (ev.meas b) (ev.law b) hn, mul_comm]
  have hn' : (n : ℝ) ≠ 0 := by exact_mod_cast hn.ne'
  have hnull : ∀ᵐ ω ∂μ, ∀ b ∈ B, q b = 0 → ebF (ebEvent X S f b) n ω = 0 := by
    refine (ae_ball_iff B.countable_toSet).2 fun b _ => ?_
    by_cases hb : q b = 0
    · have : ∀ᵐ ω ∂μ, ∀ i, ω ∉ ebEvent X S f b i := ae_all_iff.2 fun i => by
        have hz : μ (ebEvent X S f b i) = 0 := by
          have : μ.real (ebEvent X S f b i) = q b := ev.law b i
          rw [hb] at this
          rwa [measureReal_eq_zero_iff] at this
        exact measure_eq_zero_iff_ae_notMem.1 hz
      filter_upwards [this] with ω hω _
      unfold ebF
      simp [Set.indicator, hω]
    · exact Filter.Eventually.of_forall fun ω hc => absurd hc hb
  have hone : ∀ᵐ ω ∂μ, ∑ b ∈ B, ebF (ebEvent X S f b) n ω = 1 := by
    filter_upwards [ev.cover] with ω hω
    unfold ebF
    rw [← Finset.sum_div, Finset.sum_comm]
    have : ∀ i ∈ Finset.range n, ∑ b ∈ B, (ebEvent X S f b i).indicator (fun _ => (1 : ℝ)) ω = 1 := by
      intro i _
      obtain ⟨b, hb, hbi⟩ := hω i
      rw [Finset.sum_eq_single_of_mem b hb]
      · simp [hbi]
      · intro c _ hne
        rw [Set.indicator_of_notMem]
        exact fun hc => Set.disjoint_left.1 (ev.disj c b i hne) hc hbi
    rw [Finset.sum_congr rfl this]
    simp [hn']
  have hD : ∀ᵐ ω ∂μ, 0 ≤ H - entropy ((observed X n ω).map f) - T ω := by
    filter_upwards [hae, hnull, hone] with ω e1 e2 e3
    have e4 : T ω = ∑ b ∈ B, ebF (ebEvent X S f b) n ω * Real.log (q b) + H := by
      simp only [hTdef, hψ, add_mul]
      rw [Finset.sum_add_distrib, ← Finset.mul_sum, e3, mul_one]
      congr 1
      exact Finset.sum_congr rfl fun b _ => mul_comm _ _
    have e5 : ∑ b ∈ B, (ebF (ebEvent X S f b) n ω - q b) ≤
        ∑ b ∈ B, (ebF (ebEvent X S f b) n ω * Real.log (ebF (ebEvent X S f b) n ω) - ebF (ebEvent X S f b) n ω * Real.log (q b)) := by
      refine Finset.sum_le_sum fun b hb => ?_
      have hF := ebF_nonneg (ebEvent X S f b) n ω
      have hq0 : 0 ≤ q b := (ev.law b 0) ▸ measureReal_nonneg
      rcases hq0.eq_or_lt with hz | hpos
      · rw [e2 b hb hz.symm, ← hz]; simp
      · rcases hF.eq_or_lt with h1 | h1
        · rw [← h1]; simp; exact hpos.le
        · have := Real.log_le_sub_one_of_pos (div_pos hpos h1)
          rw [Real.log_div hpos.ne' h1.ne'] at this
          have h3 := mul_le_mul_of_nonneg_left this h1.le
          rw [mul_sub, mul_sub, mul_div_cancel₀ _ h1.ne'] at h3
          linarith
    rw [Finset.sum_sub_distrib, Finset.sum_sub_distrib, e3] at e5
    rw [show ∑ b ∈ B, q b = 1 from ev.total] at e5
    rw [e1, e4]
    linarith
  have hTabs : ∫ ω, |T ω| ∂μ ≤ Real.sqrt ((2 * M - 1) * (∑ b ∈ B, q b * ψ b ^ 2) / n) := by
    refine Real.le_sqrt_of_sq_le ?_
    have : (∫ ω, |T ω| ∂μ) ^ 2 ≤ ∫ ω, T ω ^ 2 ∂μ := by
      have hv : 0 ≤ ∫ ω, (|T ω| - ∫ ω', |T ω'| ∂μ) ^ 2 ∂μ := integral_nonneg fun ω => sq_nonneg _
      have i1 : Integrable (fun ω => T ω ^ 2 - 2 * (∫ ω', |T ω'| ∂μ) * |T ω|) μ := hT2.sub (hTI.abs.const_mul _)
      have ee : ∀ ω, (|T ω| - ∫ ω', |T ω'| ∂μ) ^ 2 = T ω ^ 2 - 2 * (∫ ω', |T ω'| ∂μ) * |T ω| + (∫ ω', |T ω'| ∂μ) ^ 2 := fun ω => by
        rw [sub_sq, sq_abs]; ring
      simp only [ee] at hv
      rw [integral_add i1 (integrable_const _), integral_sub hT2 (hTI.abs.const_mul _), integral_const_mul] at hv
      simp at hv
      nlinarith
    exact this.trans hT2le
  have hDI : Integrable (fun ω => H - entropy ((observed X n ω).map f) - T ω) μ := ((integrable_const H).sub hI).sub hTI
  have hDm : ∫ ω, (H - entropy ((observed X n ω).map f) - T ω) ∂μ ≤ (2 * M - 1) * (B.card - 1) / n := by
    have i1 : Integrable (fun ω => H - entropy ((observed X n ω).map f)) μ := (integrable_const H).sub hI
    rw [integral_sub i1 hTI, integral_sub (integrable_const H) hI, hTm]
    simp
    linarith
  have hfin : ∫ ω, |entropy ((observed X n ω).map f) - H| ∂μ ≤ ∫ ω, (|T ω| + (H - entropy ((observed X n ω).map f) - T ω)) ∂μ := by
    have i2 : Integrable (fun ω => |entropy ((observed X n ω).map f) - H|) μ := (hI.sub (integrable_const H)).abs
    refine integral_mono_ae i2 (hTI.abs.add hDI) ?_
    filter_upwards [hD] with ω hω
    show |entropy ((observed X n ω).map f) - H| ≤ |T ω| + (H - entropy ((observed X n ω).map f) - T ω)
    rw [abs_le]
    constructor
    · linarith [le_abs_self (T ω), neg_abs_le (T ω)]
    · linarith [le_abs_self (T ω), neg_abs_le (T ω)]
  rw [integral_add hTI.abs hDI] at hfin
  have : spreadOf S p f = ∑ b ∈ B, q b * ψ b ^ 2 := rfl
  rw [this]
  linarith

end entropy

end Verif
