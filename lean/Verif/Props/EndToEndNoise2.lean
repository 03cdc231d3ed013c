import Mathlib.Probability.Independence.InfinitePi
import Mathlib.Probability.Distributions.Gaussian.Real
import Verif.Spec.NoiseLaw
import Verif.Props.EndToEndNoise

/-!
# C85: the size of the noise
-/

namespace Verif
open Spec MeasureTheory ProbabilityTheory

theorem entry_plus (e : Nat → Nat → ℝ) (v : KVar) {t j : Nat} (h : HasEntry v t j) : entry (v.plus e) t j = entry v t j + e t j := by
  obtain ⟨h1, h2⟩ := h
  unfold entry
  rw [assure2d_plus]
  have e1 : (assure2d v).rows[t]? = some (assure2d v).rows[t] := List.getElem?_eq_getElem h1
  rw [List.getD_eq_getElem?_getD, e1, Option.getD_some] at h2
  have e2 : (assure2d v).rows[t][j]? = some (assure2d v).rows[t][j] := List.getElem?_eq_getElem h2
  simp only [jitter, List.getD_eq_getElem?_getD, List.getElem?_mapIdx, e1, Option.map_some, Option.getD_some, e2]

variable {Ω : Type} [MeasurableSpace Ω] {μ : Measure Ω} [IsProbabilityMeasure μ] {X : Nat → Nat → Nat → Ω → ℝ}

theorem variance_shift (hX : StdDraws μ X) (c v : ℝ) (i n t j : Nat) :
    variance (fun ω => c + v * ((List.range n).map (fun r => X (i + r) t j ω)).sum) μ = n * v ^ 2 := by
  have hsum : (fun ω => ((List.range n).map (fun r => X (i + r) t j ω)).sum) = ∑ r ∈ Finset.range n, X (i + r) t j := by
    funext ω
    rw [Finset.sum_apply]
    rfl
  have hv : variance (∑ r ∈ Finset.range n, X (i + r) t j) μ = n := by
    rw [IndepFun.variance_sum (fun r _ => hX.memLp _ _ _) (fun r _ s _ hrs => hX.indep (i + r, t, j) (i + s, t, j) (by simpa using hrs))]
    simp [hX.var]
  have hm : AEStronglyMeasurable (fun ω => v * ((List.range n).map (fun r => X (i + r) t j ω)).sum) μ := by
    have := (memLp_finsetSum' (Finset.range n) (fun r _ => hX.memLp (i + r) t j) (p := 2) (μ := μ)).aestronglyMeasurable
    rw [← hsum] at this
    exact this.const_mul v
  rw [variance_const_add hm, variance_const_mul, hsum, hv, mul_comm]

/-- **C85** With independent draws of variance one: the noise of a variable has the requested standard deviation `v`, but the noise of the
condition of the nearest-neighbour conditional mutual information of `n` samples has variance `n · v²`: its standard deviation is `√n · v`. -/
theorem C85_noise_variance (hX : StdDraws μ X) (W : Ω → World) (hW : ∀ ω i t j, (W ω).draw i t j = X i t j ω) (v : ℝ) (z : KVar)
    (t j : Nat) (h : HasEntry z t j) (i n : Nat) :
    variance (fun ω => entry (noisyCond (W ω) v i z) t j) μ = v ^ 2 ∧
    variance (fun ω => entry (noisyCondSum (W ω) v i n z) t j) μ = n * v ^ 2 := by
  constructor
  · have := variance_shift hX (entry z t j) v i 1 t j
    simp only [List.range_one, List.map_cons, List.map_nil, List.sum_cons, List.sum_nil, add_zero, Nat.cast_one, one_mul] at this
    rw [← this]
    congr 1
    funext ω
    rw [noisyCond, entry_plus _ _ h, hW]
  · rw [← variance_shift hX (entry z t j) v i n t j]
    congr 1
    funext ω
    rw [noisyCondSum, entry_plus _ _ h]
    simp only [hW]

/-- independent standard normal draws -/
noncomputable def gaussDraws : Measure (Nat × Nat × Nat → ℝ) := Measure.infinitePi (fun _ => gaussianReal 0 1)

theorem stdDraws_gauss : StdDraws gaussDraws (fun i t j ω => ω (i, t, j)) := by
  have hmp : ∀ p : Nat × Nat × Nat, gaussDraws.map (fun ω => ω p) = gaussianReal 0 1 := fun p =>
    Measure.infinitePi_map_eval _ p
  have hme : ∀ p : Nat × Nat × Nat, Measurable (fun ω : Nat × Nat × Nat → ℝ => ω p) := fun p => measurable_pi_apply p
  refine ⟨fun i t j => ?_, fun i t j => ?_, fun i t j => ?_, fun p q hpq => ?_⟩
  · have := memLp_id_gaussianReal (μ := 0) (v := 1) 2
    rw [← hmp (i, t, j)] at this
    exact this.comp_measurePreserving ⟨hme _, rfl⟩
  · have := integral_map (hme (i, t, j)).aemeasurable (μ := gaussDraws) (f := id) (by fun_prop)
    rw [hmp] at this
    simpa [integral_id_gaussianReal] using this.symm
  · have := variance_map (X := id) (Y := fun ω : Nat × Nat × Nat → ℝ => ω (i, t, j)) (μ := gaussDraws) (by fun_prop) (hme _).aemeasurable
    rw [hmp, variance_id_gaussianReal] at this
    simpa using this.symm
  · have := iIndepFun_infinitePi (P := fun _ : Nat × Nat × Nat => gaussianReal 0 1) (X := fun _ x => x) (fun _ => measurable_id)
    exact this.indepFun hpq

end Verif
