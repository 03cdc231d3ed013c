import Verif.Lemmas.AlmostSure
import Verif.Spec.WhiteNoise
import Mathlib.Probability.Independence.InfinitePi
import Mathlib.Data.Fintype.Perm

/-!
# Lemmas for C96: blocks of independent readings and their ordinal patterns
-/

namespace Verif

open Spec MeasureTheory ProbabilityTheory

section
variable {Ω : Type} [MeasurableSpace Ω] {μ : Measure Ω} [IsProbabilityMeasure μ] {α : Type} [MeasurableSpace α] {U : ℕ → Ω → α}

/-- disjoint blocks of an independent sequence are independent -/
theorem noise_blocks (h : Noise μ U) {m n : ℕ} (a : Fin m → ℕ) (b : Fin n → ℕ) (hab : ∀ x y, a x ≠ b y) :
    IndepFun (fun ω t => U (a t) ω) (fun ω t => U (b t) ω) μ := by
  have hd : Disjoint (Finset.univ.image a) (Finset.univ.image b) := by
    rw [Finset.disjoint_left]
    intro i hi hj
    obtain ⟨x, -, rfl⟩ := Finset.mem_image.1 hi
    obtain ⟨y, -, e⟩ := Finset.mem_image.1 hj
    exact hab x y e.symm
  have h0 := h.indep.indepFun_finset _ _ hd h.measurable
  have h1 := h0.comp (φ := fun (v : Finset.univ.image a → α) (t : Fin m) => v ⟨a t, Finset.mem_image_of_mem _ (Finset.mem_univ _)⟩)
    (ψ := fun (v : Finset.univ.image b → α) (t : Fin n) => v ⟨b t, Finset.mem_image_of_mem _ (Finset.mem_univ _)⟩)
    (measurable_pi_lambda _ fun t => measurable_pi_apply _) (measurable_pi_lambda _ fun t => measurable_pi_apply _)
  exact h1

theorem noise_block_law (h : Noise μ U) {m : ℕ} (a b : Fin m → ℕ) (ha : a.Injective) (hb : b.Injective) :
    μ.map (fun ω t => U (a t) ω) = μ.map (fun ω t => U (b t) ω) := by
  have key : ∀ c : Fin m → ℕ, c.Injective → μ.map (fun ω t => U (c t) ω) = Measure.pi (fun _ => μ.map (U 0)) := fun c hc => by
    have h1 : iIndepFun (fun t => U (c t)) μ := h.indep.precomp hc
    rw [(iIndepFun_iff_map_fun_eq_pi_map fun t => (h.measurable (c t)).aemeasurable).1 h1]
    congr 1
    funext t
    exact (h.same (c t)).map_eq
  rw [key a ha, key b hb]

theorem noise_event (h : Noise μ U) {m : ℕ} (a b : Fin m → ℕ) (ha : a.Injective) (hb : b.Injective) {E : Set (Fin m → α)} (hE : MeasurableSet E) :
    μ.real {ω | (fun t => U (a t) ω) ∈ E} = μ.real {ω | (fun t => U (b t) ω) ∈ E} := by
  have hm : ∀ c : Fin m → ℕ, Measurable (fun ω t => U (c t) ω) := fun c => measurable_pi_lambda _ fun t => h.measurable _
  have e : ∀ c : Fin m → ℕ, {ω | (fun t => U (c t) ω) ∈ E} = (fun ω t => U (c t) ω) ⁻¹' E := fun c => rfl
  rw [e, e, measureReal_def, measureReal_def, ← Measure.map_apply (hm a) hE, ← Measure.map_apply (hm b) hE, noise_block_law h a b ha hb]

theorem noise_step_inj {d s : ℕ} (hs : 0 < s) (i : ℕ) : Function.Injective (fun t : Fin d => i + (t : ℕ) * s) := fun t u e => by
  have : (t : ℕ) * s = u * s := by simpa using e
  exact Fin.ext (Nat.eq_of_mul_eq_mul_right hs this)

/-- a function of the windows of an independent sequence -/
theorem noise_sampling (h : Noise μ U) {d s : ℕ} (hs : 0 < s) {γ : Type} (g : (Fin d → α) → γ) (hg : ∀ w, MeasurableSet (g ⁻¹' {w}))
    {T : Finset γ} (hT : ∀ i, ∀ᵐ ω ∂μ, g (fun t => U (i + t * s) ω) ∈ T) :
    Sampling μ (fun i ω => g (fun t => U (i + t * s) ω)) T (fun w => μ.real {ω | g (fun t => U (0 + t * s) ω) = w}) ((d - 1) * s + 1) := by
  have hm : ∀ i, Measurable (fun ω (t : Fin d) => U (i + t * s) ω) := fun i => measurable_pi_lambda _ fun t => h.measurable _
  have law : ∀ i w, μ.real {ω | g (fun t => U (i + t * s) ω) = w} = μ.real {ω | g (fun t => U (0 + t * s) ω) = w} := fun i w =>
    noise_event h _ _ (noise_step_inj hs i) (noise_step_inj hs 0) (hg w)
  refine ⟨fun i w _ => hm i (hg w), hT, fun i w _ => law i w, fun i j hij x _ y _ => ?_⟩
  have hind := noise_blocks h (fun t : Fin d => i + (t : ℕ) * s) (fun t : Fin d => j + (t : ℕ) * s) (fun t u e => by
    have h1 : (t : ℕ) * s ≤ (d - 1) * s := Nat.mul_le_mul_right _ (by have := t.isLt; omega)
    have := Nat.zero_le ((u : ℕ) * s)
    omega)
  have := hind.measure_inter_preimage_eq_mul _ _ (hg x) (hg y)
  rw [← law i x, ← law j y]
  have e2 := congrArg ENNReal.toReal this
  rw [ENNReal.toReal_mul] at e2
  exact e2

end

section
variable {Ω : Type} [MeasurableSpace Ω] {μ : Measure Ω} [IsProbabilityMeasure μ] {X : ℕ → Ω → ℝ}

/-- two readings differ with probability one -/
theorem noise_ne (h : Noise μ X) (hc : NoAtom μ X) {i j : ℕ} (hij : i ≠ j) : ∀ᵐ ω ∂μ, X i ω ≠ X j ω := by
  have hi := h.indep.indepFun hij
  rw [indepFun_iff_map_prod_eq_prod_map_map (h.measurable i).aemeasurable (h.measurable j).aemeasurable] at hi
  have hD : MeasurableSet {p : ℝ × ℝ | p.1 = p.2} := measurableSet_eq_fun measurable_fst measurable_snd
  have hz : ∀ x : ℝ, (μ.map (X j)) {x} = 0 := fun x => by
    rw [(h.same j).map_eq, Measure.map_apply (h.measurable 0) (measurableSet_singleton x)]
    exact hc x
  have : IsProbabilityMeasure (μ.map (X j)) := Measure.isProbabilityMeasure_map (h.measurable j).aemeasurable
  have : IsProbabilityMeasure (μ.map (X i)) := Measure.isProbabilityMeasure_map (h.measurable i).aemeasurable
  have e : (μ.map (fun ω => (X i ω, X j ω))) {p : ℝ × ℝ | p.1 = p.2} = 0 := by
    rw [hi, Measure.prod_apply hD]
    have : ∀ x : ℝ, Prod.mk x ⁻¹' {p : ℝ × ℝ | p.1 = p.2} = {x} := fun x => by
      ext y
      simp [eq_comm]
    simp only [this, hz, lintegral_zero]
  rw [Measure.map_apply ((h.measurable i).prodMk (h.measurable j)) hD] at e
  rw [ae_iff]
  convert e using 2
  ext ω
  simp

/-- how many readings of the window are smaller -/
noncomputable def nRank {d : ℕ} (v : Fin d → ℝ) (t : Fin d) : ℕ := (Finset.univ.filter (fun u => v u < v t)).card

theorem nRank_lt {d : ℕ} {v : Fin d → ℝ} {t u : Fin d} (h : v t < v u) : nRank v t < nRank v u := by
  refine Finset.card_lt_card ⟨fun w hw => ?_, fun hh => ?_⟩
  · simp only [Finset.mem_filter, Finset.mem_univ, true_and] at hw ⊢
    exact hw.trans h
  · have := hh (x := t) (by simpa using h)
    simp at this

theorem nRank_le {d : ℕ} (v : Fin d → ℝ) (t : Fin d) : nRank v t < d := by
  have : nRank v t < (Finset.univ : Finset (Fin d)).card := Finset.card_lt_card ⟨fun w _ => Finset.mem_univ _, fun hh => by
    have := hh (Finset.mem_univ t)
    simp at this⟩
  simpa using this

theorem nRank_inj {d : ℕ} {v : Fin d → ℝ} (hv : v.Injective) : Function.Injective (nRank v) := fun t u e => by
  rcases lt_trichotomy (v t) (v u) with h | h | h
  · have := nRank_lt h; omega
  · exact hv h
  · have := nRank_lt h; omega

theorem nRank_comp {d : ℕ} (v : Fin d → ℝ) (τ : Equiv.Perm (Fin d)) (t : Fin d) : nRank (fun u => v (τ u)) t = nRank v (τ t) := by
  unfold nRank
  refine Finset.card_bij (fun u _ => τ u) (fun u hu => by simpa using hu) (fun u _ w _ e => τ.injective e) (fun w hw => ?_)
  exact ⟨τ.symm w, by simpa using hw, by simp⟩

theorem rankPattern_ofFn {d : ℕ} (v : Fin d → ℝ) : rankPattern (List.ofFn v) = List.ofFn (nRank v) := by
  unfold rankPattern
  rw [List.map_ofFn]
  congr 1
  funext t
  simp only [Function.comp, nRank]
  rw [List.ofFn_eq_map, List.countP_map, List.countP_eq_length_filter]
  rfl

theorem noise_window (d s i : ℕ) (ω : Ω) :
    (List.range d).map (fun j => X (i + j * s) ω) = List.ofFn (fun t : Fin d => X (i + t * s) ω) := by
  refine List.ext_getElem (by simp) fun j h1 h2 => by simp

theorem patternAt_eq (X : ℕ → Ω → ℝ) (d s : ℕ) : patternAt X d s = fun i ω => List.ofFn (nRank (fun t : Fin d => X (i + t * s) ω)) := by
  funext i ω
  rw [patternAt, noise_window, rankPattern_ofFn]

theorem nRank_measurable {d : ℕ} (t : Fin d) : Measurable (fun v : Fin d → ℝ => nRank v t) := by
  unfold nRank
  simp only [Finset.card_filter]
  exact Finset.measurable_sum _ fun u _ => Measurable.ite (measurableSet_lt (measurable_pi_apply u) (measurable_pi_apply t)) measurable_const measurable_const

theorem noise_pattern_set {d : ℕ} (w : List ℕ) : MeasurableSet ((fun v : Fin d → ℝ => List.ofFn (nRank v)) ⁻¹' {w}) := by
  by_cases hw : w.length = d
  · subst hw
    have : ((fun v : Fin w.length → ℝ => List.ofFn (nRank v)) ⁻¹' {w}) = ⋂ t : Fin w.length, (fun v => nRank v t) ⁻¹' {w.get t} := by
      ext v
      simp only [Set.mem_preimage, Set.mem_singleton_iff, Set.mem_iInter]
      constructor
      · intro e t
        have : nRank v = w.get := List.ofFn_injective (by rw [e, List.ofFn_get])
        rw [this]
      · intro e
        rw [show nRank v = w.get from funext e, List.ofFn_get]
    rw [this]
    exact MeasurableSet.iInter fun t => nRank_measurable t (measurableSet_singleton _)
  · convert MeasurableSet.empty
    ext v
    simp only [Set.mem_preimage, Set.mem_singleton_iff, Set.mem_empty_iff_false, iff_false]
    rintro rfl
    simp at hw

/-- distinct readings have one of the `d!` patterns -/
theorem noise_pattern_mem {d : ℕ} {v : Fin d → ℝ} (hv : v.Injective) : List.ofFn (nRank v) ∈ allPatterns d := by
  have hb : Function.Bijective (fun t : Fin d => (⟨nRank v t, nRank_le v t⟩ : Fin d)) :=
    Finite.injective_iff_bijective.1 fun t u e => nRank_inj hv (by simpa using e)
  exact Finset.mem_image.2 ⟨Equiv.ofBijective _ hb, Finset.mem_univ _, by simp⟩

theorem noise_window_inj (h : Noise μ X) (hc : NoAtom μ X) {d s : ℕ} (hs : 0 < s) (i : ℕ) :
    ∀ᵐ ω ∂μ, Function.Injective (fun t : Fin d => X (i + t * s) ω) := by
  have : ∀ᵐ ω ∂μ, ∀ t u : Fin d, t ≠ u → X (i + t * s) ω ≠ X (i + u * s) ω := by
    refine ae_all_iff.2 fun t => ae_all_iff.2 fun u => ?_
    by_cases htu : t = u
    · exact Filter.Eventually.of_forall fun ω hne => absurd htu hne
    · filter_upwards [noise_ne h hc (i := i + t * s) (j := i + u * s) (fun e => htu (noise_step_inj hs i e))] with ω hω _ using hω
  filter_upwards [this] with ω hω t u e
  by_contra hne
  exact hω t u hne e

theorem noise_perm_law (h : Noise μ X) {d s : ℕ} (hs : 0 < s) (σ : Equiv.Perm (Fin d)) :
    μ.real {ω | List.ofFn (nRank (fun t : Fin d => X (0 + t * s) ω)) = List.ofFn (fun t => (σ t : ℕ))} =
      μ.real {ω | List.ofFn (nRank (fun t : Fin d => X (0 + t * s) ω)) = List.ofFn (fun t : Fin d => (t : ℕ))} := by
  have key := noise_event h (fun t : Fin d => 0 + (t : ℕ) * s) (fun t : Fin d => 0 + (σ.symm t : ℕ) * s) (noise_step_inj hs 0)
    ((noise_step_inj hs 0).comp σ.symm.injective) (noise_pattern_set (List.ofFn (fun t : Fin d => (t : ℕ))))
  simp only [Set.mem_preimage, Set.mem_singleton_iff] at key
  rw [key]
  congr 1
  ext ω
  simp only [Set.mem_ofPred_eq]
  have e : nRank (fun t : Fin d => X (0 + (σ.symm t : ℕ) * s) ω) = fun t => nRank (fun t : Fin d => X (0 + (t : ℕ) * s) ω) (σ.symm t) :=
    funext fun t => nRank_comp (fun t : Fin d => X (0 + (t : ℕ) * s) ω) σ.symm t
  rw [e, List.ofFn_injective.eq_iff, List.ofFn_injective.eq_iff]
  constructor
  · intro hh
    funext t
    have := congrFun hh (σ.symm t)
    simpa using this
  · intro hh
    funext t
    have := congrFun hh (σ t)
    simpa using this

theorem allPatterns_inj (d : ℕ) : Function.Injective (fun σ : Equiv.Perm (Fin d) => List.ofFn (fun t => (σ t : ℕ))) := fun σ τ e => by
  have := List.ofFn_injective e
  exact Equiv.ext fun t => Fin.ext (congrFun this t)

/-- every one of the `d!` patterns has probability `1 / d!` -/
theorem noise_pattern_law (h : Noise μ X) (hc : NoAtom μ X) {d s : ℕ} (hs : 0 < s) {w : List ℕ} (hw : w ∈ allPatterns d) :
    μ.real {ω | List.ofFn (nRank (fun t : Fin d => X (0 + t * s) ω)) = w} = 1 / (d.factorial : ℝ) := by
  have hm : Measurable (fun ω (t : Fin d) => X (0 + t * s) ω) := measurable_pi_lambda _ fun t => h.measurable _
  have hmeas : ∀ w : List ℕ, MeasurableSet {ω | List.ofFn (nRank (fun t : Fin d => X (0 + t * s) ω)) = w} := fun w => hm (noise_pattern_set w)
  have hsum : ∑ w ∈ allPatterns d, μ.real {ω | List.ofFn (nRank (fun t : Fin d => X (0 + t * s) ω)) = w} = 1 := by
    rw [← measureReal_biUnion_finset (fun w _ w' _ hne => Set.disjoint_left.2 fun ω h1 h2 => hne (h1.symm.trans h2)) (fun w _ => hmeas w)]
    have hone : μ (⋃ w ∈ allPatterns d, {ω | List.ofFn (nRank (fun t : Fin d => X (0 + t * s) ω)) = w}) = 1 := by
      refine (prob_compl_eq_zero_iff ((allPatterns d).measurableSet_biUnion fun w _ => hmeas w)).1 ?_
      rw [← mem_ae_iff]
      filter_upwards [noise_window_inj h hc (d := d) hs 0] with ω hω
      exact Set.mem_biUnion (noise_pattern_mem hω) rfl
    rw [measureReal_def, hone, ENNReal.toReal_one]
  have hconst : ∀ w ∈ allPatterns d, μ.real {ω | List.ofFn (nRank (fun t : Fin d => X (0 + t * s) ω)) = w} =
      μ.real {ω | List.ofFn (nRank (fun t : Fin d => X (0 + t * s) ω)) = List.ofFn (fun t : Fin d => (t : ℕ))} := fun w hw => by
    obtain ⟨σ, -, rfl⟩ := Finset.mem_image.1 hw
    exact noise_perm_law h hs σ
  rw [Finset.sum_congr rfl hconst, Finset.sum_const, allPatterns, Finset.card_image_of_injective _ (allPatterns_inj d), Finset.card_univ,
    Fintype.card_perm, Fintype.card_fin, nsmul_eq_mul] at hsum
  rw [hconst w hw, eq_div_iff (by positivity)]
  linarith

end

theorem shannon_uniform (d : ℕ) : shannon (allPatterns d) (fun _ => 1 / (d.factorial : ℝ)) = Real.log d.factorial := by
  unfold shannon
  rw [Finset.sum_const, allPatterns, Finset.card_image_of_injective _ (allPatterns_inj d), Finset.card_univ, Fintype.card_perm, Fintype.card_fin,
    nsmul_eq_mul, one_div, Real.log_inv]
  have : (d.factorial : ℝ) ≠ 0 := by positivity
  field_simp

end Verif
