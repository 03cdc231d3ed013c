import Verif.Lemmas.AlmostSure

/-!
# Lemmas for C94: windows of independent observations, and when the limits vanish
-/

namespace Verif

open Spec MeasureTheory ProbabilityTheory

section
variable {α β : Type} [DecidableEq α] [DecidableEq β]

/-- probability of the value of `f` -/
noncomputable def iid_marg (S : Finset α) (p : α → ℝ) (f : α → β) (b : β) : ℝ := ∑ a ∈ S with f a = b, p a

theorem iid_shannonOf (S : Finset α) (p : α → ℝ) (f : α → β) :
    shannonOf S p f = -∑ a ∈ S, p a * Real.log (iid_marg S p f (f a)) := by
  unfold shannonOf shannon
  congr 1
  rw [← Finset.sum_fiberwise_of_maps_to (g := f) (t := S.image f) (fun a ha => Finset.mem_image_of_mem _ ha)]
  refine Finset.sum_congr rfl fun b _ => ?_
  rw [Finset.sum_mul]
  refine Finset.sum_congr rfl fun a ha => ?_
  rw [(Finset.mem_filter.1 ha).2]
  rfl

theorem iid_marg_ge {S : Finset α} {p : α → ℝ} (hp : ∀ a ∈ S, 0 ≤ p a) (f : α → β) {a : α} (ha : a ∈ S) : p a ≤ iid_marg S p f (f a) :=
  Finset.single_le_sum (f := p) (fun x hx => hp x (Finset.mem_filter.1 hx).1) (Finset.mem_filter.2 ⟨ha, rfl⟩)

end

section
variable {A B C : Type} [DecidableEq A] [DecidableEq B] [DecidableEq C]

theorem iid_pairInfo_zero {S : Finset (A × B)} {p : A × B → ℝ} (hp : ∀ w ∈ S, 0 ≤ p w)
    (h : ∀ w ∈ S, p w = iid_marg S p (fun w => w.1) w.1 * iid_marg S p (fun w => w.2) w.2) : pairInfo S p = 0 := by
  unfold pairInfo
  rw [iid_shannonOf, iid_shannonOf, shannon, sub_neg_eq_add, ← neg_add, ← Finset.sum_add_distrib, neg_add_eq_zero]
  refine Finset.sum_congr rfl fun w hw => ?_
  rcases (hp w hw).eq_or_lt with h0 | h0
  · rw [← h0]; ring
  · have h1 := h0.trans_le (iid_marg_ge hp (fun w : A × B => w.1) hw)
    have h2 := h0.trans_le (iid_marg_ge hp (fun w : A × B => w.2) hw)
    conv_rhs => rw [h w hw]
    rw [Real.log_mul h1.ne' h2.ne', ← h w hw]
    ring

theorem iid_tripleInfo_zero {S : Finset (A × B × C)} {p : A × B × C → ℝ} (hp : ∀ w ∈ S, 0 ≤ p w)
    (h : ∀ w ∈ S, p w * iid_marg S p (fun w => w.2.2) w.2.2 =
      iid_marg S p (fun w => (w.1, w.2.2)) (w.1, w.2.2) * iid_marg S p (fun w => w.2) w.2) : tripleInfo S p = 0 := by
  unfold tripleInfo
  rw [iid_shannonOf, iid_shannonOf, iid_shannonOf, shannon, sub_neg_eq_add, sub_neg_eq_add, ← neg_add, ← Finset.sum_add_distrib, add_assoc,
    ← Finset.sum_add_distrib, neg_add_eq_zero]
  refine Finset.sum_congr rfl fun w hw => ?_
  rcases (hp w hw).eq_or_lt with h0 | h0
  · rw [← h0]; ring
  · have h1 := h0.trans_le (iid_marg_ge hp (fun w : A × B × C => (w.1, w.2.2)) hw)
    have h2 := h0.trans_le (iid_marg_ge hp (fun w : A × B × C => w.2) hw)
    have h3 := h0.trans_le (iid_marg_ge hp (fun w : A × B × C => w.2.2) hw)
    have := congrArg Real.log (h w hw)
    rw [Real.log_mul h0.ne' h3.ne', Real.log_mul h1.ne' h2.ne'] at this
    linear_combination -(p w) * this

/-- a product of a distribution of the first component and one of the others -/
theorem iid_tripleInfo_product {SA : Finset A} {SB : Finset B} {SC : Finset C} {p : A × B × C → ℝ} {r : A → ℝ} {q : B × C → ℝ}
    (hr : ∀ x, 0 ≤ r x) (hq : ∀ y, 0 ≤ q y) (hp : ∀ x y z, p (x, y, z) = r x * q (y, z)) : tripleInfo (SA ×ˢ (SB ×ˢ SC)) p = 0 := by
  refine iid_tripleInfo_zero (fun w _ => by rw [show w = (w.1, w.2.1, w.2.2) from rfl, hp]; exact mul_nonneg (hr _) (hq _)) ?_
  rintro ⟨x, y, z⟩ hw
  simp only [Finset.mem_product] at hw
  obtain ⟨hx, hy, hz⟩ := hw
  have e1 : iid_marg (SA ×ˢ (SB ×ˢ SC)) p (fun w => w.2.2) z = (∑ a ∈ SA, r a) * ∑ b ∈ SB, q (b, z) := by
    unfold iid_marg
    rw [Finset.sum_filter, Finset.sum_product, Finset.sum_mul]
    refine Finset.sum_congr rfl fun a _ => ?_
    rw [Finset.sum_product, Finset.mul_sum]
    refine Finset.sum_congr rfl fun b _ => ?_
    simp [hp, hz]
  have e2 : iid_marg (SA ×ˢ (SB ×ˢ SC)) p (fun w => (w.1, w.2.2)) (x, z) = r x * ∑ b ∈ SB, q (b, z) := by
    unfold iid_marg
    rw [Finset.sum_filter, Finset.sum_product, Finset.sum_eq_single x]
    · rw [Finset.sum_product, Finset.mul_sum]
      refine Finset.sum_congr rfl fun b _ => ?_
      simp [hp, hz]
    · intro a _ hne
      exact Finset.sum_eq_zero fun w _ => by simp [hne]
    · exact fun h => absurd hx h
  have e3 : iid_marg (SA ×ˢ (SB ×ˢ SC)) p (fun w => w.2) (y, z) = (∑ a ∈ SA, r a) * q (y, z) := by
    unfold iid_marg
    rw [Finset.sum_filter, Finset.sum_product, Finset.sum_mul]
    refine Finset.sum_congr rfl fun a _ => ?_
    rw [Finset.sum_eq_single (y, z)]
    · simp [hp]
    · intro b _ hne; simp [hne]
    · exact fun h => absurd (Finset.mem_product.2 ⟨hy, hz⟩) h
  simp only [e1, e2, e3, hp]
  ring

end

section
variable {Ω : Type} [MeasurableSpace Ω] {μ : Measure Ω} [IsProbabilityMeasure μ] {α : Type} [MeasurableSpace α] {S : Finset α} {U : ℕ → Ω → α}

/-- disjoint blocks of an independent sequence are independent -/
theorem iid_blocks (h : Iid μ U S) {m n : ℕ} (a : Fin m → ℕ) (b : Fin n → ℕ) (hab : ∀ x y, a x ≠ b y) :
    IndepFun (fun ω t => U (a t) ω) (fun ω t => U (b t) ω) μ := by
  have hd : Disjoint (Finset.univ.image a) (Finset.univ.image b) := by
    rw [Finset.disjoint_left]
    intro i hi hj
    obtain ⟨x, -, rfl⟩ := Finset.mem_image.1 hi
    obtain ⟨y, -, e⟩ := Finset.mem_image.1 hj
    exact hab x y e.symm
  have h0 := h.indep.indepFun_finset _ _ hd h.measurable
  have h1 := h0.comp (φ := fun (v : Finset.univ.image a → α) (t : Fin m) => v ⟨a t, Finset.mem_image_of_mem _ (Finset.mem_univ _)⟩)
    (ψ := fun (v : Finset.univ.image b → α) (t : Fin n) => v ⟨b t, Finset.mem_image_of_mem _ (Finset.mem_univ _)⟩)
    (measurable_pi_lambda _ fun t => measurable_pi_apply _) (measurable_pi_lambda _ fun t => measurable_pi_apply _)
  exact h1

theorem iid_block_law (h : Iid μ U S) {m : ℕ} (a b : Fin m → ℕ) (ha : a.Injective) (hb : b.Injective) :
    μ.map (fun ω t => U (a t) ω) = μ.map (fun ω t => U (b t) ω) := by
  have key : ∀ c : Fin m → ℕ, c.Injective → μ.map (fun ω t => U (c t) ω) = Measure.pi (fun _ => μ.map (U 0)) := fun c hc => by
    have h1 : iIndepFun (fun t => U (c t)) μ := h.indep.precomp hc
    rw [(iIndepFun_iff_map_fun_eq_pi_map fun t => (h.measurable (c t)).aemeasurable).1 h1]
    congr 1
    funext t
    exact (h.same (c t)).map_eq
  rw [key a ha, key b hb]

/-- a window function of an independent sequence -/
theorem iid_sampling (h : Iid μ U S) {m s : ℕ} (hs : 0 < s) {γ : Type} (g : (Fin (m + 1) → α) → γ) (hg : ∀ w, MeasurableSet (g ⁻¹' {w}))
    {T : Finset γ} (hT : ∀ v, (∀ t, v t ∈ S) → g v ∈ T) :
    Sampling μ (fun i ω => g (fun t => U ((i + t) * s) ω)) T (fun w => μ.real {ω | g (fun t => U ((0 + t) * s) ω) = w}) (m + 1) := by
  have hm : ∀ i, Measurable (fun ω (t : Fin (m + 1)) => U ((i + t) * s) ω) := fun i => measurable_pi_lambda _ fun t => h.measurable _
  have hinj : ∀ i, Function.Injective (fun t : Fin (m + 1) => (i + (t : ℕ)) * s) := fun i t u e => by
    have := Nat.eq_of_mul_eq_mul_right hs e
    exact Fin.ext (by omega)
  have law : ∀ i w, μ.real {ω | g (fun t => U ((i + t) * s) ω) = w} = μ.real {ω | g (fun t => U ((0 + t) * s) ω) = w} := fun i w => by
    have e : ∀ i, {ω | g (fun t => U ((i + t) * s) ω) = w} = (fun ω (t : Fin (m + 1)) => U ((i + t) * s) ω) ⁻¹' (g ⁻¹' {w}) := fun i => rfl
    rw [e, e, measureReal_def, measureReal_def, ← Measure.map_apply (hm i) (hg w), ← Measure.map_apply (hm 0) (hg w),
      iid_block_law h _ _ (hinj i) (hinj 0)]
  refine ⟨fun i w _ => hm i (hg w), fun i => ?_, fun i w _ => law i w, fun i j hij x _ y _ => ?_⟩
  · have : ∀ᵐ ω ∂μ, ∀ t : Fin (m + 1), U ((i + t) * s) ω ∈ S := ae_all_iff.2 fun t => h.mem _
    filter_upwards [this] with ω hω using hT _ hω
  · have hind := iid_blocks h (fun t : Fin (m + 1) => (i + (t : ℕ)) * s) (fun t : Fin (m + 1) => (j + (t : ℕ)) * s) (fun t u e => by
      have := Nat.eq_of_mul_eq_mul_right hs e
      have := t.isLt
      omega)
    have := hind.measure_inter_preimage_eq_mul _ _ (hg x) (hg y)
    rw [← law i x, ← law j y]
    have e2 := congrArg ENNReal.toReal this
    rw [ENNReal.toReal_mul] at e2
    exact e2

end

end Verif
