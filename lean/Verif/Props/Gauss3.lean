import Verif.Props.Gauss2

/-! # C71: dependence of the Gaussian kernel estimators on the bandwidth -/

namespace Verif

open Matrix Spec Topology

variable {m n : Nat}

/-- squared Mahalanobis distance -/
noncomputable def mahal (S : Matrix (Fin m) (Fin m) ℝ) (v : Fin m → ℝ) : ℝ := v ⬝ᵥ (S⁻¹ *ᵥ v)

/-- mean kernel weight -/
noncomputable def gWeight (n : Nat) (X : Fin m → List ℝ) (h : ℝ) (x : Fin m → ℝ) : ℝ :=
  mean ((List.range n).map (fun t => Real.exp (-(mahal (covOf X) (x - atTime X t)) / (2 * h ^ 2))))

theorem gauss_split {X : Fin m → List ℝ} (F : Fit n X) {h : ℝ} (hh : 0 < h) (x : Fin m → ℝ) :
    gaussJoint n X h x = gWeight n X h x / (h ^ m * Real.sqrt ((2 * Real.pi) ^ m * (covOf X).det)) := by
  unfold gaussJoint gWeight
  have hu : IsUnit (covOf X).det := isUnit_iff_ne_zero.2 F.pd.det_pos.ne'
  have hinv : (h ^ 2 • covOf X)⁻¹ = (h ^ 2)⁻¹ • (covOf X)⁻¹ := by
    have hk : IsUnit (h ^ 2) := isUnit_iff_ne_zero.2 (by positivity)
    obtain ⟨k, hk'⟩ := hk
    rw [← hk']
    have := Matrix.inv_smul' (covOf X) k hu
    simp only [Units.smul_def] at this
    rw [this]
    simp
  have hdet : Real.sqrt ((2 * Real.pi) ^ m * (h ^ 2 • covOf X).det) = h ^ m * Real.sqrt ((2 * Real.pi) ^ m * (covOf X).det) := by
    rw [Matrix.det_smul, Fintype.card_fin, show (2 * Real.pi) ^ m * ((h ^ 2) ^ m * (covOf X).det) =
      (h ^ m) ^ 2 * ((2 * Real.pi) ^ m * (covOf X).det) by ring, Real.sqrt_mul (by positivity), Real.sqrt_sq (by positivity)]
  rw [← mean_map_div]
  congr 1
  refine List.map_congr_left fun t _ => ?_
  unfold normalPdf mahal
  rw [hdet, hinv]
  congr 2
  rw [smul_mulVec, dotProduct_smul, smul_eq_mul]
  field_simp

theorem mahal_nonneg {X : Fin m → List ℝ} (F : Fit n X) (v : Fin m → ℝ) : 0 ≤ mahal (covOf X) v := by
  have := F.pd.inv.posSemidef.dotProduct_mulVec_nonneg v
  rwa [star_trivial] at this

theorem mahal_pos {X : Fin m → List ℝ} (F : Fit n X) {v : Fin m → ℝ} (hv : v ≠ 0) : 0 < mahal (covOf X) v := by
  have := F.pd.inv.dotProduct_mulVec_pos hv
  rwa [star_trivial] at this

theorem gWeight_le {X : Fin m → List ℝ} (F : Fit n X) (h : ℝ) (x : Fin m → ℝ) : gWeight n X h x ≤ 1 := by
  have hn : (0 : ℝ) < n := by have := F.two; exact_mod_cast (by omega : 0 < n)
  unfold gWeight mean
  rw [List.length_map, List.length_range, div_le_one hn]
  have := List.sum_le_card_nsmul ((List.range n).map (fun t => Real.exp (-(mahal (covOf X) (x - atTime X t)) / (2 * h ^ 2)))) 1 ?_
  · simpa using this
  · intro y hy
    obtain ⟨t, -, rfl⟩ := List.mem_map.1 hy
    rw [Real.exp_le_one_iff]
    have := mahal_nonneg F (x - atTime X t)
    exact div_nonpos_of_nonpos_of_nonneg (by linarith) (by positivity)

theorem gWeight_ge {X : Fin m → List ℝ} (F : Fit n X) (h : ℝ) {t : Nat} (ht : t < n) : 1 / (n : ℝ) ≤ gWeight n X h (atTime X t) := by
  have hn : (0 : ℝ) < n := by have := F.two; exact_mod_cast (by omega : 0 < n)
  unfold gWeight mean
  rw [List.length_map, List.length_range]
  refine div_le_div_of_nonneg_right ?_ hn.le
  refine List.single_le_sum (l := (List.range n).map _) ?_ _ (List.mem_map.2 ⟨t, List.mem_range.2 ht, by simp [mahal]⟩)
  intro y hy
  obtain ⟨p, -, rfl⟩ := List.mem_map.1 hy
  exact (Real.exp_pos _).le

theorem gWeight_pos {X : Fin m → List ℝ} (F : Fit n X) (h : ℝ) {t : Nat} (ht : t < n) : 0 < gWeight n X h (atTime X t) := by
  have hn : (0 : ℝ) < n := by have := F.two; exact_mod_cast (by omega : 0 < n)
  exact lt_of_lt_of_le (by positivity) (gWeight_ge F h ht)

theorem gNorm_log {X : Fin m → List ℝ} (F : Fit n X) {h : ℝ} (hh : 0 < h) :
    Real.log (h ^ m * Real.sqrt ((2 * Real.pi) ^ m * (covOf X).det)) = Real.log ((2 * Real.pi * h ^ 2) ^ m * (covOf X).det) / 2 := by
  have h1 := F.pd.det_pos
  have h2 := Real.pi_pos
  rw [show (2 * Real.pi * h ^ 2) ^ m * (covOf X).det = (h ^ m) ^ 2 * ((2 * Real.pi) ^ m * (covOf X).det) by rw [mul_pow]; ring,
    Real.log_mul (by positivity) (by positivity), Real.log_mul (by positivity) (by positivity), Real.log_sqrt (by positivity),
    Real.log_pow (h ^ m) 2]
  push_cast
  ring

theorem gNorm_pos {X : Fin m → List ℝ} (F : Fit n X) {h : ℝ} (hh : 0 < h) :
    0 < h ^ m * Real.sqrt ((2 * Real.pi) ^ m * (covOf X).det) := by
  have h1 := F.pd.det_pos
  have h2 := Real.pi_pos
  positivity

theorem gEntropy_local {X : Fin m → List ℝ} (F : Fit n X) {h : ℝ} (hh : 0 < h) {t : Nat} (ht : t < n) :
    - Real.log (gaussJoint n X h (atTime X t)) =
      Real.log ((2 * Real.pi * h ^ 2) ^ m * (covOf X).det) / 2 + - Real.log (gWeight n X h (atTime X t)) := by
  rw [gauss_split F hh, Real.log_div (gWeight_pos F h ht).ne' (gNorm_pos F hh).ne', gNorm_log F hh]
  ring

theorem gMean_bounds {g : Nat → ℝ} (hn : 2 ≤ n) {lo hi : ℝ} (H : ∀ t < n, lo ≤ g t ∧ g t ≤ hi) :
    lo ≤ mean ((List.range n).map g) ∧ mean ((List.range n).map g) ≤ hi := by
  have hn' : (0 : ℝ) < n := by exact_mod_cast (by omega : 0 < n)
  unfold mean
  rw [List.length_map, List.length_range, le_div_iff₀ hn', div_le_iff₀ hn']
  have h1 := List.card_nsmul_le_sum ((List.range n).map g) lo (by
    intro y hy
    obtain ⟨t, ht, rfl⟩ := List.mem_map.1 hy
    exact (H t (List.mem_range.1 ht)).1)
  have h2 := List.sum_le_card_nsmul ((List.range n).map g) hi (by
    intro y hy
    obtain ⟨t, ht, rfl⟩ := List.mem_map.1 hy
    exact (H t (List.mem_range.1 ht)).2)
  simp only [List.length_map, List.length_range, nsmul_eq_mul] at h1 h2
  constructor <;> linarith

theorem negLogWeight {X : Fin m → List ℝ} (F : Fit n X) (h : ℝ) {t : Nat} (ht : t < n) :
    0 ≤ - Real.log (gWeight n X h (atTime X t)) ∧ - Real.log (gWeight n X h (atTime X t)) ≤ Real.log n := by
  have hn : (0 : ℝ) < n := by have := F.two; exact_mod_cast (by omega : 0 < n)
  constructor
  · have := Real.log_nonpos (gWeight_pos F h ht).le (gWeight_le F h _)
    linarith
  · have := Real.log_le_log (by positivity) (gWeight_ge F h ht)
    rw [one_div, Real.log_inv] at this
    linarith

/-- The joint entropy lies within `log n` above the maximum log-density bound `½ log((2πh²)^m det S)`: it is finite for every
bandwidth and grows like `m log h`. -/
theorem C71_joint_bounds (eig : Eig) (he : EigOK eig) (X : Fin m → List ℝ) (hm : 1 ≤ m) (hn : 2 ≤ n) (hX : ∀ j, (X j).length = n)
    (hs : Spread X) (h : ℝ) (hh : 0 < h) (w : Int) (hw : 1 ≤ w) (b : Base) (hb : b.Valid) :
    ∃ v, kernelEntropy [.tup (List.ofFn (fun j => KVar.one (X j)))] (gaussCfg eig h w) b = .ok v ∧
      Real.log ((2 * Real.pi * h ^ 2) ^ m * (covOf X).det) / 2 ≤ v * b.ln ∧
      v * b.ln ≤ Real.log ((2 * Real.pi * h ^ 2) ^ m * (covOf X).det) / 2 + Real.log n := by
  have F := fit_spread hm hn hX hs
  refine ⟨_, C71_joint_value eig he X hm hn hX hs h hh w hw b hb, ?_⟩
  rw [div_mul_cancel₀ _ hb.ln_ne]
  unfold gaussEntropy
  refine gMean_bounds hn fun t ht => ?_
  rw [gEntropy_local F hh ht]
  have := negLogWeight F h ht
  constructor <;> linarith

example (eig : Eig) (he : EigOK eig) := C71_joint_bounds eig he gEx (by norm_num) (by norm_num) gEx_length gEx_spread 1 one_pos 1 le_rfl (.num 2)
  (by norm_num [Base.Valid])

/-- The same for one series, which needs no cut-off. -/
theorem C71_entropy_bounds (eig : Eig) (he : EigOK eig) (xs : List ℝ) (hn : 2 ≤ xs.length) (hv : 0 < sampleVar xs)
    (h : ℝ) (hh : 0 < h) (w : Int) (hw : 1 ≤ w) (b : Base) (hb : b.Valid) :
    ∃ v, kernelEntropy [.arr (.one xs)] (gaussCfg eig h w) b = .ok v ∧
      Real.log (2 * Real.pi * h ^ 2 * sampleVar xs) / 2 ≤ v * b.ln ∧
      v * b.ln ≤ Real.log (2 * Real.pi * h ^ 2 * sampleVar xs) / 2 + Real.log xs.length := by
  have F := fit_one (n := xs.length) rfl hn hv
  refine ⟨_, C71_entropy_value eig he xs hn hv h hh w hw b hb, ?_⟩
  rw [div_mul_cancel₀ _ hb.ln_ne]
  conv => 
    enter [1, 2, 1]
    rw [list_eq_range xs 0 rfl, List.map_map]
  conv => 
    enter [2, 1, 1]
    rw [list_eq_range xs 0 rfl, List.map_map]
  rw [← list_eq_range xs 0 rfl]
  refine gMean_bounds hn fun t ht => ?_
  have := gEntropy_local F hh ht
  rw [gaussJoint_one rfl] at this
  simp only [Function.comp]
  have e : (covOf (fun _ : Fin 1 => xs)).det = sampleVar xs := by rw [Matrix.det_fin_one]; rfl
  rw [e, pow_one] at this
  have e2 : atTime (fun _ : Fin 1 => xs) t 0 = xs.getD t 0 := rfl
  rw [e2] at this
  rw [this]
  have := negLogWeight F h ht
  constructor <;> linarith

example (eig : Eig) (he : EigOK eig) := C71_entropy_bounds eig he [0, 1, 0, 1] (by simp) gVar_pos 1 one_pos 3 (by norm_num) (.num 2)
  (by norm_num [Base.Valid])

/-- mutual information of a multivariate normal distribution with the sample covariance -/
noncomputable def normalMI (X : Fin m → List ℝ) : ℝ := Real.log ((∏ j, sampleVar (X j)) / (covOf X).det) / 2

theorem gaussMI_split {X : Fin m → List ℝ} (F : Fit n X) {h : ℝ} (hh : 0 < h) {t : Nat} (ht : t < n) :
    Real.log (gaussJoint n X h (atTime X t) / ∏ j, gauss1 (X j) h ((X j).getD t 0)) =
      normalMI X + Real.log (gWeight n X h (atTime X t)) +
        ∑ j, - Real.log (gWeight n (fun _ : Fin 1 => X j) h (atTime (fun _ : Fin 1 => X j) t)) := by
  have Fj : ∀ j, Fit n (fun _ : Fin 1 => X j) := fun j => fit_one (F.len j) F.two (covOf_diag_pos F.pd j)
  have e1 : ∀ j, gauss1 (X j) h ((X j).getD t 0) =
      gaussJoint n (fun _ : Fin 1 => X j) h (atTime (fun _ : Fin 1 => X j) t) := fun j => by
    rw [gaussJoint_one (F.len j)]; rfl
  have hp : ∀ j, gauss1 (X j) h ((X j).getD t 0) ≠ 0 := fun j =>
    (gauss1_pos (by rw [F.len j]; exact F.two) (covOf_diag_pos F.pd j) hh _).ne'
  rw [Real.log_div (gaussJoint_pos F hh _).ne' (Finset.prod_ne_zero_iff.2 fun j _ => hp j), Real.log_prod (fun j _ => hp j)]
  have e2 := gEntropy_local F hh ht
  have e3 : ∀ j, Real.log (gauss1 (X j) h ((X j).getD t 0)) =
      - (Real.log (2 * Real.pi * h ^ 2 * sampleVar (X j)) / 2) +
        Real.log (gWeight n (fun _ : Fin 1 => X j) h (atTime (fun _ : Fin 1 => X j) t)) := by
    intro j
    have := gEntropy_local (Fj j) hh ht
    have e : (covOf (fun _ : Fin 1 => X j)).det = sampleVar (X j) := by rw [Matrix.det_fin_one]; rfl
    rw [← e1 j, e, pow_one] at this
    linarith
  simp only [e3]
  rw [Finset.sum_add_distrib, Finset.sum_neg_distrib, ← Finset.sum_div, Finset.sum_neg_distrib]
  have hpi := Real.pi_pos
  have hd := F.pd.det_pos
  have hv : ∀ j, 0 < sampleVar (X j) := covOf_diag_pos F.pd
  have e4 : ∑ j, Real.log (2 * Real.pi * h ^ 2 * sampleVar (X j)) = Real.log ((2 * Real.pi * h ^ 2) ^ m * ∏ j, sampleVar (X j)) := by
    rw [← Real.log_prod (fun j _ => (by have := hv j; positivity)), Finset.prod_mul_distrib, Finset.prod_const, Finset.card_univ,
      Fintype.card_fin]
  have hP : 0 < ∏ j, sampleVar (X j) := Finset.prod_pos fun j _ => hv j
  rw [e4]
  unfold normalMI
  rw [Real.log_div hP.ne' hd.ne', Real.log_mul (by positivity) hP.ne']
  rw [Real.log_mul (by positivity) hd.ne'] at e2
  linarith

/-- Bounds for every bandwidth: within `log n` below and `m log n` above the mutual information of a normal distribution with
the sample covariance. -/
theorem C71_mi_bounds (eig : Eig) (he : EigOK eig) (X : Fin m → List ℝ) (hm : 2 ≤ m) (hn : 2 ≤ n) (hX : ∀ j, (X j).length = n)
    (hs : Spread X) (h : ℝ) (hh : 0 < h) (w : Int) (hw : 1 ≤ w) (b : Base) (hb : b.Valid) :
    ∃ v, kernelMI (List.ofFn (fun j => KVar.one (X j))) (some 0) false (gaussCfg eig h w) b = .ok v ∧
      Real.log ((∏ j, sampleVar (X j)) / (covOf X).det) / 2 - Real.log n ≤ v * b.ln ∧
      v * b.ln ≤ Real.log ((∏ j, sampleVar (X j)) / (covOf X).det) / 2 + m * Real.log n := by
  have F := fit_spread (by omega) hn hX hs
  refine ⟨_, C71_mi_value eig he X hm hn hX hs h hh w hw b hb, ?_⟩
  rw [div_mul_cancel₀ _ hb.ln_ne]
  unfold gaussMI
  refine gMean_bounds hn fun t ht => ?_
  rw [gaussMI_split F hh ht]
  have h1 := negLogWeight F h ht
  have h2 : ∀ j, _ := fun j => negLogWeight (fit_one (F.len j) F.two (covOf_diag_pos F.pd j)) h ht
  have h3 := Finset.sum_nonneg fun j (_ : j ∈ Finset.univ) => (h2 j).1
  have h4 := Finset.sum_le_card_nsmul Finset.univ _ _ fun j (_ : j ∈ Finset.univ) => (h2 j).2
  simp only [Finset.card_univ, Fintype.card_fin, nsmul_eq_mul] at h4
  unfold normalMI
  constructor <;> linarith

example (eig : Eig) (he : EigOK eig) := C71_mi_bounds eig he gEx (by norm_num) (by norm_num) gEx_length gEx_spread 1 one_pos 1 le_rfl (.num 2)
  (by norm_num [Base.Valid])

end Verif
