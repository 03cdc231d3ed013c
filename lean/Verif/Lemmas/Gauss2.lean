import Verif.Lemmas.Gauss
import Verif.Spec.Gauss
import Verif.Props.Normalize
import Mathlib.Analysis.Matrix.Spectrum
import Mathlib.Data.Fin.Tuple.Sort

/-! # The Gaussian density estimate as run by the estimators -/

namespace Verif

open Matrix Spec

/-- configuration with the Gaussian kernel -/
noncomputable def gaussCfg (eig : Eig) (h : ℝ) (w : Int := 1) : KdeCfg := ⟨.num h, gaussian eig, w⟩

/-- points of an array -/
def ptsOf (a : Arr) : List (Fin a.cols → ℝ) := a.rows.map (vecOf a.cols)

/-- the data are fitted without projection -/
structure GReg (a : Arr) : Prop where
  two : 2 ≤ a.rows.length
  col : 1 ≤ a.cols
  pd : (covMat (ptsOf a)).PosDef
  spread : 1 < a.cols → ∀ v : Fin a.cols → ℝ, v ⬝ᵥ v = 1 → 1 / 10 ^ 10 < v ⬝ᵥ (covMat (ptsOf a) *ᵥ v)

theorem eig_full {eig : Eig} (he : EigOK eig) {d : Nat} {S : Matrix (Fin d) (Fin d) ℝ} (hS : S.IsSymm)
    (h : ∀ v : Fin d → ℝ, v ⬝ᵥ v = 1 → 1 / 10 ^ 10 < v ⬝ᵥ (S *ᵥ v)) : numLarge (eig d S) = d := by
  obtain ⟨h1, h2, -, -⟩ := he d S hS
  unfold numLarge
  conv_rhs => rw [← h1]
  rw [List.countP_eq_length]
  intro e hm
  obtain ⟨h3, h4⟩ := h2 e hm
  have := h e.2 h3
  rw [h4, dotProduct_smul, h3, smul_eq_mul, mul_one] at this
  simpa using this

theorem covMat_isSymm {d : Nat} (pts : List (Fin d → ℝ)) : (covMat pts).IsSymm := by
  have := covMat_isHermitian pts
  rwa [Matrix.IsHermitian, conjTranspose_eq_transpose_of_trivial] at this

theorem gaussFit_full {eig : Eig} (he : EigOK eig) {a : Arr} (ha : GReg a) (h : ℝ) :
    gaussFit eig a h = .ok (fun x => gaussAt (ptsOf a) h (vecOf a.cols x)) := by
  have hlen : (ptsOf a).length = a.rows.length := by simp [ptsOf]
  have hk : gaussKde (ptsOf a) h = .ok (gaussAt (ptsOf a) h) := by
    unfold gaussKde
    rw [if_neg, if_pos ⟨ha.pd, by rw [hlen]; exact ha.two⟩]
    rw [hlen]
    have := ha.two; have := ha.col
    nlinarith
  unfold gaussFit
  simp only
  change (if 1 < a.cols then (if numLarge (eig a.cols (covMat (ptsOf a))) < a.cols then _ else
    (gaussKde (ptsOf a) h).bind _) else (gaussKde (ptsOf a) h).bind _) = _
  rw [hk]
  split_ifs with h1 h2
  · rw [eig_full he (covMat_isSymm _) (ha.spread h1)] at h2
    omega
  · rfl
  · rfl

theorem kde_gauss {eig : Eig} (he : EigOK eig) {a : Arr} (ha : GReg a) {h : ℝ} (hh : 0 < h) {w : Int} (hw : 1 ≤ w) :
    kdeDensity a none (gaussCfg eig h w) = .ok (a.rows.map (fun x => gaussAt (ptsOf a) h (vecOf a.cols x))) := by
  unfold kdeDensity gaussCfg gaussian
  simp only [PyArg.posNumber, if_pos hh, Option.getD_none, ne_eq, not_true_eq_false, if_false]
  rw [gaussFit_full he ha]
  simp only
  exact C48_parallel_eq_sequential _ _ _ _ hw (by have := ha.two; omega)


/-- a solver as assumed exists -/
theorem eigOK_exists : ∃ eig : Eig, EigOK eig := by
  classical
  let eig : Eig := fun d S =>
    if h : S.IsHermitian then
      let s := Tuple.sort (fun i => - h.eigenvalues i)
      List.ofFn (fun i : Fin d => (h.eigenvalues (s i), (h.eigenvectorBasis (s i) : Fin d → ℝ)))
    else []
  refine ⟨eig, fun d S hS => ?_⟩
  have h : S.IsHermitian := by rwa [Matrix.IsHermitian, conjTranspose_eq_transpose_of_trivial]
  have e : eig d S = List.ofFn (fun i : Fin d => (h.eigenvalues (Tuple.sort (fun i => - h.eigenvalues i) i),
      (h.eigenvectorBasis (Tuple.sort (fun i => - h.eigenvalues i) i) : Fin d → ℝ))) := by
    simp only [eig, dif_pos h]
  rw [e]
  set s := Tuple.sort (fun i => - h.eigenvalues i) with hs
  refine ⟨by simp, ?_, ?_, ?_⟩
  · intro x hx
    rw [List.mem_ofFn] at hx
    obtain ⟨i, rfl⟩ := hx
    refine ⟨?_, ?_⟩
    · have := h.eigenvectorBasis.orthonormal.1 (s i)
      rw [EuclideanSpace.norm_eq, Real.sqrt_eq_one] at this
      simp only [dotProduct]
      rw [← this]
      refine Finset.sum_congr rfl fun j _ => ?_
      simp [pow_two]
    · exact h.mulVec_eigenvectorBasis (s i)
  · have hl : LinearIndependent ℝ (fun i => h.eigenvectorBasis (s i)) :=
      h.eigenvectorBasis.orthonormal.linearIndependent.comp s s.injective
    have hl' := hl.map' (WithLp.linearEquiv 2 ℝ (Fin d → ℝ)).toLinearMap (by simp)
    have ef : (fun i : Fin d => ((List.ofFn (fun i : Fin d => (h.eigenvalues (s i),
        (h.eigenvectorBasis (s i) : Fin d → ℝ)))).getD i (0, 0)).2) =
        (WithLp.linearEquiv 2 ℝ (Fin d → ℝ)).toLinearMap ∘ fun i => h.eigenvectorBasis (s i) := by
      funext i
      simp
    rw [ef]
    exact hl'
  · rw [List.pairwise_ofFn]
    intro i j hij
    have := Tuple.monotone_sort (fun i => - h.eigenvalues i) hij.le
    simp only [Function.comp] at this
    simpa using this

end Verif
