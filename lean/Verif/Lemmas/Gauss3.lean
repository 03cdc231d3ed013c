import Verif.Lemmas.Gauss2
import Verif.Props.KernelMI
import Verif.Lemmas.KernelCMI

/-! # The Gaussian density estimate of several series -/

namespace Verif

open Matrix Spec

variable {m n : Nat}

/-- the array whose columns are the series -/
def arrOf (n : Nat) (X : Fin m → List ℝ) : Arr := ⟨m, (List.range n).map (fun t => List.ofFn (atTime X t))⟩

theorem vecOf_ofFn (f : Fin m → ℝ) : vecOf m (List.ofFn f) = f := by
  funext j
  simp [vecOf]

theorem ptsOf_arrOf (n : Nat) (X : Fin m → List ℝ) : ptsOf (arrOf n X) = (List.range n).map (atTime X) := by
  unfold ptsOf arrOf
  simp only [List.map_map]
  refine List.map_congr_left fun t _ => ?_
  exact vecOf_ofFn _

theorem range_getD (xs : List ℝ) (hx : xs.length = n) : (List.range n).map (fun t => xs.getD t 0) = xs :=
  (list_eq_range xs 0 hx).symm

theorem meanVec_atTime {X : Fin m → List ℝ} (hX : ∀ j, (X j).length = n) :
    meanVec ((List.range n).map (atTime X)) = fun j => mean (X j) := by
  funext j
  unfold meanVec mean
  simp only [List.map_map, List.length_map, List.length_range, hX]
  congr 2
  exact range_getD _ (hX j)

theorem covMat_atTime {X : Fin m → List ℝ} (hX : ∀ j, (X j).length = n) :
    covMat ((List.range n).map (atTime X)) = covOf X := by
  ext j k
  unfold covMat covOf sampleCov
  rw [meanVec_atTime hX, List.map_map, List.length_map, List.length_range, hX j]
  congr 2
  have : (X j).zip (X k) = (List.range n).map (fun t => ((X j).getD t 0, (X k).getD t 0)) := by
    conv_lhs => rw [← range_getD (X j) (hX j), ← range_getD (X k) (hX k)]
    rw [List.zip_map']
  rw [this, List.map_map]
  rfl

theorem gaussAt_atTime {X : Fin m → List ℝ} (hX : ∀ j, (X j).length = n) (h : ℝ) (x : Fin m → ℝ) :
    gaussAt ((List.range n).map (atTime X)) h x = gaussJoint n X h x := by
  unfold gaussAt gaussJoint mean normalPdf
  rw [covMat_atTime hX]
  simp only [List.map_map, List.length_map, List.length_range]
  have := sum_map_div_const (List.range n) (fun t => Real.exp (-((x - atTime X t) ⬝ᵥ ((h ^ 2 • covOf X)⁻¹ *ᵥ (x - atTime X t))) / 2))
    (Real.sqrt ((2 * Real.pi) ^ m * (h ^ 2 • covOf X).det))
  rw [this, div_div, mul_comm (n : ℝ)]
  rfl

/-- the series can be fitted without projection -/
structure Fit (n : Nat) (X : Fin m → List ℝ) : Prop where
  two : 2 ≤ n
  one : 1 ≤ m
  len : ∀ j, (X j).length = n
  pd : (covOf X).PosDef
  spread : 1 < m → Spread X

theorem Fit.reg {X : Fin m → List ℝ} (F : Fit n X) : GReg (arrOf n X) := by
  refine ⟨by simp [arrOf, F.two], F.one, ?_, fun h1 v hv => ?_⟩
  · have e := ptsOf_arrOf n X
    have e2 := covMat_atTime F.len
    exact (congrArg Matrix.PosDef ((congrArg covMat e).trans e2)).mpr F.pd
  · have e := (congrArg covMat (ptsOf_arrOf n X)).trans (covMat_atTime F.len)
    have := F.spread h1 v hv
    exact (congrArg (fun S : Matrix (Fin m) (Fin m) ℝ => 1 / 10 ^ 10 < v ⬝ᵥ (S *ᵥ v)) e).mpr this

theorem kde_arrOf {eig : Eig} (he : EigOK eig) {X : Fin m → List ℝ} (F : Fit n X) {h : ℝ} (hh : 0 < h) {w : Int} (hw : 1 ≤ w) :
    kdeDensity (arrOf n X) none (gaussCfg eig h w) = .ok ((List.range n).map (fun t => gaussJoint n X h (atTime X t))) := by
  rw [kde_gauss he F.reg hh hw]
  congr 1
  unfold arrOf
  simp only [List.map_map]
  refine List.map_congr_left fun t _ => ?_
  simp only [Function.comp]
  rw [vecOf_ofFn]
  have := ptsOf_arrOf n X
  unfold arrOf at this
  rw [this, gaussAt_atTime F.len]

theorem gaussJoint_pos {X : Fin m → List ℝ} (F : Fit n X) {h : ℝ} (hh : 0 < h) (x : Fin m → ℝ) : 0 < gaussJoint n X h x := by
  rw [← gaussAt_atTime F.len]
  refine gaussAt_pos ?_ (by rw [covMat_atTime F.len]; exact F.pd) hh x
  have := F.two
  simp
  omega

/-! ### one series -/

theorem normalPdf_one (S : Matrix (Fin 1) (Fin 1) ℝ) (μ x : Fin 1 → ℝ) : normalPdf S μ x = normal1 (μ 0) (S 0 0) (x 0) := by
  unfold normalPdf normal1
  rw [Matrix.det_fin_one, pow_one, Matrix.inv_subsingleton]
  simp only [dotProduct, Matrix.mulVec_diagonal, Finset.univ_unique, Fin.default_eq_zero, Finset.sum_singleton,
    Pi.sub_apply, Ring.inverse_eq_inv']
  congr 2
  by_cases h0 : S 0 0 = 0
  · simp [h0]
  · field_simp

theorem gaussJoint_one {xs : List ℝ} (hx : xs.length = n) (h : ℝ) (x : Fin 1 → ℝ) :
    gaussJoint n (fun _ : Fin 1 => xs) h x = gauss1 xs h (x 0) := by
  unfold gaussJoint gauss1
  simp only [normalPdf_one]
  conv_rhs => rw [← range_getD xs hx, List.map_map]
  congr 1
  refine List.map_congr_left fun t _ => ?_
  simp only [Function.comp, atTime, covOf, Matrix.smul_apply, smul_eq_mul]
  rw [range_getD xs hx]
  rfl

theorem fit_one {xs : List ℝ} (hx : xs.length = n) (hn : 2 ≤ n) (hv : 0 < sampleVar xs) : Fit n (fun _ : Fin 1 => xs) := by
  refine ⟨hn, le_rfl, fun _ => hx, ?_, fun h => absurd h (by norm_num)⟩
  have : covOf (fun _ : Fin 1 => xs) = sampleVar xs • (1 : Matrix (Fin 1) (Fin 1) ℝ) := by
    ext j k
    rw [Subsingleton.elim k j]
    simp [covOf, sampleVar]
  rw [this]
  exact Matrix.PosDef.one.smul hv

theorem col_arrOf {xs : List ℝ} (hx : xs.length = n) : col xs = arrOf n (fun _ : Fin 1 => xs) := by
  unfold col assure2d arrOf
  simp only [Arr.mk.injEq, true_and]
  conv_lhs => rw [← range_getD xs hx, List.map_map]
  refine List.map_congr_left fun t _ => ?_
  simp [atTime]

theorem kde_col {eig : Eig} (he : EigOK eig) {xs : List ℝ} (hx : xs.length = n) (hn : 2 ≤ n) (hv : 0 < sampleVar xs) {h : ℝ}
    (hh : 0 < h) {w : Int} (hw : 1 ≤ w) :
    kdeDensity (col xs) none (gaussCfg eig h w) = .ok ((List.range n).map (fun t => gauss1 xs h (xs.getD t 0))) := by
  rw [col_arrOf hx, kde_arrOf he (fit_one hx hn hv) hh hw]
  congr 1
  refine List.map_congr_left fun t _ => ?_
  rw [gaussJoint_one hx]
  rfl

theorem gauss1_pos {xs : List ℝ} (hn : 2 ≤ xs.length) (hv : 0 < sampleVar xs) {h : ℝ} (hh : 0 < h) (x : ℝ) : 0 < gauss1 xs h x := by
  have := gaussJoint_pos (fit_one rfl hn hv) hh (fun _ => x)
  rwa [gaussJoint_one rfl] at this

/-! ### variances of members of a fitted family -/

theorem covOf_diag_pos {X : Fin m → List ℝ} (hp : (covOf X).PosDef) (j : Fin m) : 0 < sampleVar (X j) := by
  have := hp.diag_pos (i := j)
  exact this

theorem covOf_isHermitian {X : Fin m → List ℝ} (hX : ∀ j, (X j).length = n) : (covOf X).IsHermitian := by
  rw [← covMat_atTime hX]; exact covMat_isHermitian _

theorem posDef_of_spread {X : Fin m → List ℝ} (hX : ∀ j, (X j).length = n) (hs : Spread X) : (covOf X).PosDef := by
  refine Matrix.PosDef.of_dotProduct_mulVec_pos (covOf_isHermitian hX) fun {v} hv => ?_
  rw [star_trivial]
  have hq : 0 < v ⬝ᵥ v := by
    have := dotProduct_star_self_pos_iff.2 hv
    rwa [star_trivial] at this
  have hc := Real.sqrt_pos.2 hq
  have := hs ((Real.sqrt (v ⬝ᵥ v))⁻¹ • v) (by
    rw [smul_dotProduct, dotProduct_smul, smul_eq_mul, smul_eq_mul]
    have := Real.mul_self_sqrt hq.le
    field_simp
    linarith)
  rw [mulVec_smul, smul_dotProduct, dotProduct_smul, smul_eq_mul, smul_eq_mul] at this
  have h0 : 0 < (Real.sqrt (v ⬝ᵥ v))⁻¹ * ((Real.sqrt (v ⬝ᵥ v))⁻¹ * (v ⬝ᵥ covOf X *ᵥ v)) := lt_trans (by positivity) this
  have hi := inv_pos.2 hc
  exact pos_of_mul_pos_right (pos_of_mul_pos_right h0 hi.le) hi.le

/-- at least two series that are spread in every direction -/
theorem fit_spread {X : Fin m → List ℝ} (hm : 1 ≤ m) (hn : 2 ≤ n) (hX : ∀ j, (X j).length = n) (hs : Spread X) : Fit n X :=
  ⟨hn, hm, hX, posDef_of_spread hX hs, fun _ => hs⟩

theorem stack_series {X : Fin m → List ℝ} (h1 : 1 ≤ m) (hX : ∀ j, (X j).length = n) :
    stackArrs ((List.ofFn X).map col) = .ok (arrOf n X) := by
  have hl : ∀ xs ∈ List.ofFn X, xs.length = n := by
    intro xs hx
    obtain ⟨j, rfl⟩ := List.mem_ofFn.1 hx
    exact hX j
  rw [stackArrs_ok (n := n) (by intro h0; simp at h0; omega) (fun a ha => (col_aligned hl a ha).1), col_cols_sum, List.length_ofFn]
  unfold arrOf
  congr 2
  refine List.map_congr_left fun t ht => ?_
  rw [jrow_col (List.mem_range.1 ht) hl, List.map_ofFn]
  rfl

end Verif
