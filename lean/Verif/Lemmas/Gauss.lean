import Verif.Model.Gauss
import Verif.Lemmas.Kernel2
import Mathlib.Analysis.Matrix.PosDef
import Mathlib.LinearAlgebra.Matrix.NonsingularInverse
import Mathlib.Analysis.Real.Sqrt
import Mathlib.Algebra.Order.Star.Real

/-! # Lemmas about the Gaussian density estimate -/

namespace Verif

open Matrix

variable {d e : Nat}

/-- affine map of points -/
def affVec (A : Matrix (Fin e) (Fin d) ℝ) (b : Fin e → ℝ) (p : Fin d → ℝ) : Fin e → ℝ := A *ᵥ p + b

theorem gSum_apply {β : Type} (l : List β) (f : β → Fin d → ℝ) (j : Fin d) :
    (l.map f).sum j = (l.map (fun p => f p j)).sum := by
  induction l with
  | nil => rfl
  | cons a l ih => simp [ih]

theorem gSum_apply2 {β : Type} (l : List β) (f : β → Matrix (Fin d) (Fin d) ℝ) (j k : Fin d) :
    (l.map f).sum j k = (l.map (fun p => f p j k)).sum := by
  induction l with
  | nil => rfl
  | cons a l ih => simp [ih]

theorem meanVec_eq (pts : List (Fin d → ℝ)) : meanVec pts = (1 / (pts.length : ℝ)) • pts.sum := by
  funext j
  have := gSum_apply pts id j
  simp only [List.map_id, id] at this
  simp only [meanVec, Pi.smul_apply, this, smul_eq_mul]
  ring

theorem covMat_eq (pts : List (Fin d → ℝ)) :
    covMat pts = (1 / ((pts.length : ℝ) - 1)) • (pts.map (fun p => vecMulVec (p - meanVec pts) (p - meanVec pts))).sum := by
  ext j k
  rw [Matrix.smul_apply, gSum_apply2]
  simp only [covMat, vecMulVec_apply, Pi.sub_apply, smul_eq_mul]
  ring

theorem gMulVec_sum (A : Matrix (Fin e) (Fin d) ℝ) (l : List (Fin d → ℝ)) : A *ᵥ l.sum = (l.map (fun p => A *ᵥ p)).sum := by
  induction l with
  | nil => simp
  | cons a l ih => simp [mulVec_add, ih]

theorem gSum_add_const {β : Type} [AddCommMonoid β] (l : List γ) (f : γ → β) (b : β) :
    (l.map (fun p => f p + b)).sum = (l.map f).sum + l.length • b := by
  induction l with
  | nil => simp
  | cons a l ih =>
    simp only [List.map_cons, List.sum_cons, ih, List.length_cons, succ_nsmul]
    abel

theorem meanVec_affine (A : Matrix (Fin e) (Fin d) ℝ) (b : Fin e → ℝ) {pts : List (Fin d → ℝ)} (hne : pts ≠ []) :
    meanVec (pts.map (affVec A b)) = affVec A b (meanVec pts) := by
  have hn : (pts.length : ℝ) ≠ 0 := by
    have := List.length_pos_iff.2 hne
    positivity
  rw [meanVec_eq, meanVec_eq, List.length_map]
  rw [show affVec A b = fun p => A *ᵥ p + b from rfl, gSum_add_const pts (fun p => A *ᵥ p) b]
  beta_reduce
  rw [mulVec_smul, gMulVec_sum, smul_add]
  congr 1
  rw [← Nat.cast_smul_eq_nsmul ℝ, smul_smul, one_div_mul_cancel hn, one_smul]

theorem gMat_sum (A : Matrix (Fin e) (Fin d) ℝ) (B : Matrix (Fin d) (Fin e) ℝ) (l : List (Matrix (Fin d) (Fin d) ℝ)) :
    A * l.sum * B = (l.map (fun M => A * M * B)).sum := by
  induction l with
  | nil => simp
  | cons a l ih => simp [Matrix.mul_add, Matrix.add_mul, ih]

theorem covMat_affine (A : Matrix (Fin e) (Fin d) ℝ) (b : Fin e → ℝ) {pts : List (Fin d → ℝ)} (hne : pts ≠ []) :
    covMat (pts.map (affVec A b)) = A * covMat pts * Aᵀ := by
  rw [covMat_eq, covMat_eq, List.length_map, meanVec_affine A b hne, Matrix.mul_smul, Matrix.smul_mul, gMat_sum]
  congr 2
  rw [List.map_map, List.map_map]
  refine List.map_congr_left fun p _ => ?_
  simp only [Function.comp, affVec]
  rw [mul_vecMulVec, vecMulVec_mul, vecMul_transpose]
  congr 1 <;> rw [mulVec_sub] <;> abel

theorem covMat_isHermitian (pts : List (Fin d → ℝ)) : (covMat pts).IsHermitian := by
  ext j k
  simp only [conjTranspose_apply, star_trivial, covMat]
  congr 1
  congr 1
  refine List.map_congr_left fun p _ => ?_
  ring

theorem covMat_quadratic (pts : List (Fin d → ℝ)) (x : Fin d → ℝ) :
    x ⬝ᵥ (covMat pts *ᵥ x) = (pts.map (fun p => (x ⬝ᵥ (p - meanVec pts)) ^ 2)).sum / ((pts.length : ℝ) - 1) := by
  have key : ∀ l : List (Matrix (Fin d) (Fin d) ℝ), x ⬝ᵥ (l.sum *ᵥ x) = (l.map (fun M => x ⬝ᵥ (M *ᵥ x))).sum := by
    intro l
    induction l with
    | nil => simp
    | cons a l ih => simp [Matrix.add_mulVec, dotProduct_add, ih]
  rw [covMat_eq, smul_mulVec, dotProduct_smul, key, List.map_map, smul_eq_mul, one_div, div_eq_inv_mul]
  congr 2
  refine List.map_congr_left fun p _ => ?_
  simp only [Function.comp]
  rw [vecMulVec_mulVec, dotProduct_comm (p - meanVec pts) x]
  simp [dotProduct_smul, pow_two]

theorem covMat_perm {pts pts' : List (Fin d → ℝ)} (h : pts.Perm pts') : covMat pts = covMat pts' := by
  have hm : meanVec pts = meanVec pts' := by rw [meanVec_eq, meanVec_eq, h.sum_eq, h.length_eq]
  rw [covMat_eq, covMat_eq, hm, h.length_eq, (h.map _).sum_eq]

theorem gaussAt_perm {pts pts' : List (Fin d → ℝ)} (h : pts.Perm pts') (bw : ℝ) (x : Fin d → ℝ) :
    gaussAt pts bw x = gaussAt pts' bw x := by
  simp only [gaussAt, covMat_perm h, h.length_eq, (h.map _).sum_eq]

/-! ### affine equivariance -/

theorem affVec_sub (A : Matrix (Fin e) (Fin d) ℝ) (b : Fin e → ℝ) (x p : Fin d → ℝ) :
    affVec A b x - affVec A b p = A *ᵥ (x - p) := by
  simp only [affVec, mulVec_sub]
  abel

theorem gaussAt_affine (A : Matrix (Fin d) (Fin d) ℝ) (hA : A.det ≠ 0) (b : Fin d → ℝ) {pts : List (Fin d → ℝ)}
    (hne : pts ≠ []) (h : ℝ) (x : Fin d → ℝ) :
    gaussAt (pts.map (affVec A b)) h (affVec A b x) = gaussAt pts h x / |A.det| := by
  have hu : IsUnit A.det := isUnit_iff_ne_zero.2 hA
  have hS : h ^ 2 • covMat (pts.map (affVec A b)) = A * (h ^ 2 • covMat pts) * Aᵀ := by
    rw [covMat_affine A b hne, Matrix.mul_smul, Matrix.smul_mul]
  have hq : ∀ v : Fin d → ℝ, (A *ᵥ v) ⬝ᵥ ((A * (h ^ 2 • covMat pts) * Aᵀ)⁻¹ *ᵥ (A *ᵥ v)) = v ⬝ᵥ ((h ^ 2 • covMat pts)⁻¹ *ᵥ v) := by
    intro v
    rw [Matrix.mul_inv_rev, Matrix.mul_inv_rev, dotProduct_mulVec, dotProduct_mulVec, dotProduct_mulVec, vecMul_vecMul,
      ← vecMul_transpose, vecMul_vecMul]
    congr 1
    congr 1
    have h1 : Aᵀ * Aᵀ⁻¹ = 1 := Matrix.mul_nonsing_inv _ (by rwa [det_transpose])
    have h2 : A⁻¹ * A = 1 := Matrix.nonsing_inv_mul _ hu
    rw [← Matrix.mul_assoc, ← Matrix.mul_assoc, h1, Matrix.one_mul, Matrix.mul_assoc, h2, Matrix.mul_one]
  have hdet : (A * (h ^ 2 • covMat pts) * Aᵀ).det = A.det ^ 2 * (h ^ 2 • covMat pts).det := by
    rw [det_mul, det_mul, det_transpose]; ring
  simp only [gaussAt, hS, List.map_map, List.length_map, hdet]
  have e1 : (2 * Real.pi) ^ d * (A.det ^ 2 * (h ^ 2 • covMat pts).det) = A.det ^ 2 * ((2 * Real.pi) ^ d * (h ^ 2 • covMat pts).det) := by
    ring
  rw [e1, Real.sqrt_mul (sq_nonneg _), Real.sqrt_sq_eq_abs]
  have e2 : (pts.map ((fun p => Real.exp (-((affVec A b x - p) ⬝ᵥ ((A * (h ^ 2 • covMat pts) * Aᵀ)⁻¹ *ᵥ (affVec A b x - p))) / 2)) ∘
      affVec A b)) = pts.map (fun p => Real.exp (-((x - p) ⬝ᵥ ((h ^ 2 • covMat pts)⁻¹ *ᵥ (x - p))) / 2)) := by
    refine List.map_congr_left fun p _ => ?_
    simp only [Function.comp, affVec_sub, hq]
  rw [e2, div_div]
  congr 1
  ring

theorem posDef_affine (A : Matrix (Fin d) (Fin d) ℝ) (hA : A.det ≠ 0) (S : Matrix (Fin d) (Fin d) ℝ) :
    (A * S * Aᵀ).PosDef ↔ S.PosDef := by
  have hu : IsUnit A := (Matrix.isUnit_iff_isUnit_det A).2 (isUnit_iff_ne_zero.2 hA)
  have := Matrix.IsUnit.posDef_star_right_conjugate_iff (x := S) hu
  simpa [star_eq_conjTranspose] using this

/-! ### bounds -/

theorem smul_posDef {S : Matrix (Fin d) (Fin d) ℝ} (hS : S.PosDef) {h : ℝ} (hh : 0 < h) : (h ^ 2 • S).PosDef :=
  hS.smul (by positivity)

theorem gauss_norm_pos {pts : List (Fin d → ℝ)} (hS : (covMat pts).PosDef) {h : ℝ} (hh : 0 < h) :
    0 < Real.sqrt ((2 * Real.pi) ^ d * (h ^ 2 • covMat pts).det) := by
  have := (smul_posDef hS hh).det_pos
  have := Real.pi_pos
  positivity

theorem gauss_exp_le {pts : List (Fin d → ℝ)} (hS : (covMat pts).PosDef) {h : ℝ} (hh : 0 < h) (v : Fin d → ℝ) :
    Real.exp (-(v ⬝ᵥ ((h ^ 2 • covMat pts)⁻¹ *ᵥ v)) / 2) ≤ 1 := by
  rw [Real.exp_le_one_iff]
  have := (smul_posDef hS hh).inv.posSemidef.dotProduct_mulVec_nonneg v
  simp only [star_trivial] at this
  linarith

theorem gaussAt_pos {pts : List (Fin d → ℝ)} (hne : pts ≠ []) (hS : (covMat pts).PosDef) {h : ℝ} (hh : 0 < h) (x : Fin d → ℝ) :
    0 < gaussAt pts h x := by
  have h1 := gauss_norm_pos hS hh
  have h2 : (0 : ℝ) < pts.length := by exact_mod_cast List.length_pos_iff.2 hne
  unfold gaussAt
  refine div_pos ?_ (by positivity)
  refine List.sum_pos _ ?_ (by simpa using hne)
  intro y hy
  obtain ⟨p, -, rfl⟩ := List.mem_map.1 hy
  exact Real.exp_pos _

theorem gaussAt_le {pts : List (Fin d → ℝ)} (hne : pts ≠ []) (hS : (covMat pts).PosDef) {h : ℝ} (hh : 0 < h) (x : Fin d → ℝ) :
    gaussAt pts h x ≤ 1 / Real.sqrt ((2 * Real.pi) ^ d * (h ^ 2 • covMat pts).det) := by
  have h1 := gauss_norm_pos hS hh
  have h2 : (0 : ℝ) < pts.length := by exact_mod_cast List.length_pos_iff.2 hne
  unfold gaussAt
  rw [← div_div]
  refine div_le_div_of_nonneg_right ?_ h1.le
  rw [div_le_one h2]
  have := List.sum_le_card_nsmul (pts.map (fun p => Real.exp (-((x - p) ⬝ᵥ ((h ^ 2 • covMat pts)⁻¹ *ᵥ (x - p))) / 2))) 1 ?_
  · simpa using this
  · intro y hy
    obtain ⟨p, -, rfl⟩ := List.mem_map.1 hy
    exact gauss_exp_le hS hh _

theorem gaussAt_ge {pts : List (Fin d → ℝ)} (hS : (covMat pts).PosDef) {h : ℝ} (hh : 0 < h) {x : Fin d → ℝ} (hx : x ∈ pts) :
    1 / (pts.length * Real.sqrt ((2 * Real.pi) ^ d * (h ^ 2 • covMat pts).det)) ≤ gaussAt pts h x := by
  have hne : pts ≠ [] := List.ne_nil_of_mem hx
  have h1 := gauss_norm_pos hS hh
  have h2 : (0 : ℝ) < pts.length := by exact_mod_cast List.length_pos_iff.2 hne
  unfold gaussAt
  refine div_le_div_of_nonneg_right ?_ (by positivity)
  refine List.single_le_sum (l := pts.map _) ?_ _ (List.mem_map.2 ⟨x, hx, by simp⟩)
  intro y hy
  obtain ⟨p, -, rfl⟩ := List.mem_map.1 hy
  exact (Real.exp_pos _).le

end Verif
