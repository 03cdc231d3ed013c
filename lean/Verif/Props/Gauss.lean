import Verif.Lemmas.GaussExample
import Mathlib.Analysis.SpecialFunctions.Gaussian.GaussianIntegral

/-!
# C71: the Gaussian kernel estimators

`gaussCfg eig h w`: kernel `"gaussian"` with bandwidth `h` and `w` workers, where `eig` stands for
`numpy.linalg.eig` and is only assumed to return a basis of unit eigenvectors (`Spec.EigOK`).
-/

namespace Verif

open Matrix Spec MeasureTheory

variable {m n : Nat}

theorem gSimple {eig : Eig} (he : EigOK eig) {X : Fin m → List ℝ} (F : Fit n X) {h : ℝ} (hh : 0 < h) {w : Int} (hw : 1 ≤ w)
    {b : Base} (hb : b.Valid) :
    kernelSimple (gaussCfg eig h w) b (arrOf n X) =
      .ok ((List.range n).map (fun t => - Real.log (gaussJoint n X h (atTime X t)) / b.ln)) := by
  unfold kernelSimple
  rw [kde_arrOf he F hh hw]
  simp only [bind, Except.bind]
  rw [List.mapM_map, mapM_ok (g := fun t => - Real.log (gaussJoint n X h (atTime X t)) / b.ln)]
  · have := F.two
    simp only [List.length_map, List.length_range]
    rw [if_neg (by omega)]
    rfl
  · intro t _
    simp only [Function.comp]
    rw [negLog_ok hb (gaussJoint_pos F hh _), neg_div]

theorem gMean {g : Nat → ℝ} (hn : 2 ≤ n) (c : ℝ) :
    meanOrNan ((List.range n).map (fun t => g t / c)) = .ok (mean ((List.range n).map g) / c) := by
  rw [meanOrNan_ok (by simp; omega), mean_map_div]

/-- Entropy of one series of at least two samples that is not constant: the mean over the samples of minus the logarithm of
the average of normal densities centred at the samples, whose variance is the sample variance times `h²`. -/
theorem C71_entropy_value (eig : Eig) (he : EigOK eig) (xs : List ℝ) (hn : 2 ≤ xs.length) (hv : 0 < sampleVar xs) (h : ℝ) (hh : 0 < h)
    (w : Int) (hw : 1 ≤ w) (b : Base) (hb : b.Valid) :
    kernelEntropy [.arr (.one xs)] (gaussCfg eig h w) b =
      .ok (mean (xs.map (fun x => - Real.log (gauss1 xs h x))) / b.ln) := by
  unfold kernelEntropy kernelEntropyLocal
  simp only
  rw [show assure2d (.one xs) = arrOf xs.length (fun _ : Fin 1 => xs) from col_arrOf rfl, gSimple he (fit_one rfl hn hv) hh hw hb]
  simp only [bind, Except.bind]
  rw [gMean hn]
  congr 3
  conv_rhs => rw [← range_getD xs rfl, List.map_map]
  refine List.map_congr_left fun t _ => ?_
  simp only [Function.comp, gaussJoint_one rfl, atTime]
  rw [range_getD xs rfl]

example (eig : Eig) (he : EigOK eig) := C71_entropy_value eig he [0, 1, 0, 1] (by simp) gVar_pos 1 one_pos 3 (by norm_num) (.num 2)
  (by norm_num [Base.Valid])

/-- The fitted density is positive and integrates to one: it is a probability density. -/
theorem C71_density (xs : List ℝ) (hn : 2 ≤ xs.length) (hv : 0 < sampleVar xs) (h : ℝ) (hh : 0 < h) :
    (∀ x, 0 < gauss1 xs h x) ∧ ∫ x, gauss1 xs h x = 1 := by
  refine ⟨gauss1_pos hn hv hh, ?_⟩
  have hV : 0 < h ^ 2 * sampleVar xs := by positivity
  have key : ∀ μ : ℝ, Integrable (normal1 μ (h ^ 2 * sampleVar xs)) ∧ ∫ x, normal1 μ (h ^ 2 * sampleVar xs) x = 1 := by
    intro μ
    set V := h ^ 2 * sampleVar xs
    have e : normal1 μ V = fun x => (fun y => Real.exp (-(1 / (2 * V)) * y ^ 2) * (Real.sqrt (2 * Real.pi * V))⁻¹) (x - μ) := by
      funext x
      unfold normal1
      rw [div_eq_mul_inv]
      congr 2
      ring
    have hi : Integrable (fun y : ℝ => Real.exp (-(1 / (2 * V)) * y ^ 2)) := integrable_exp_neg_mul_sq (by positivity)
    refine ⟨by rw [e]; exact (hi.mul_const _).comp_sub_right μ, ?_⟩
    rw [e, integral_sub_right_eq_self (fun y => Real.exp (-(1 / (2 * V)) * y ^ 2) * (Real.sqrt (2 * Real.pi * V))⁻¹),
      integral_mul_const, integral_gaussian]
    have : Real.pi / (1 / (2 * V)) = 2 * Real.pi * V := by field_simp
    rw [this]
    have := Real.pi_pos
    exact mul_inv_cancel₀ (Real.sqrt_pos.2 (by positivity)).ne'
  have sums : ∀ l : List ℝ, Integrable (fun x => (l.map (fun μ => normal1 μ (h ^ 2 * sampleVar xs) x)).sum) ∧
      ∫ x, (l.map (fun μ => normal1 μ (h ^ 2 * sampleVar xs) x)).sum = l.length := by
    intro l
    induction l with
    | nil => simp
    | cons a l ih =>
      simp only [List.map_cons, List.sum_cons, List.length_cons]
      refine ⟨(key a).1.add ih.1, ?_⟩
      rw [integral_add (key a).1 ih.1, (key a).2, ih.2]
      push_cast
      ring
  unfold gauss1 mean
  simp only [List.length_map]
  rw [integral_div, (sums xs).2]
  have : (xs.length : ℝ) ≠ 0 := by
    have : 0 < xs.length := by omega
    positivity
  exact div_self this

example := C71_density [0, 1, 0, 1] (by simp) gVar_pos 2 two_pos

/-- Joint entropy of several series whose sample variance exceeds the cut-off `1e-10` in every direction. -/
theorem C71_joint_value (eig : Eig) (he : EigOK eig) (X : Fin m → List ℝ) (hm : 1 ≤ m) (hn : 2 ≤ n) (hX : ∀ j, (X j).length = n)
    (hs : Spread X) (h : ℝ) (hh : 0 < h) (w : Int) (hw : 1 ≤ w) (b : Base) (hb : b.Valid) :
    kernelEntropy [.tup (List.ofFn (fun j => KVar.one (X j)))] (gaussCfg eig h w) b = .ok (gaussEntropy n X h / b.ln) := by
  have F := fit_spread hm hn hX hs
  unfold kernelEntropy kernelEntropyLocal
  simp only
  rw [if_pos]
  · have e : (List.ofFn (fun j => KVar.one (X j))).map assure2d = (List.ofFn X).map col := by
      rw [List.map_ofFn, List.map_ofFn]; rfl
    rw [e, stack_series hm hX]
    simp only [bind, Except.bind]
    rw [gSimple he F hh hw hb]
    simp only
    rw [gMean hn]
    rfl
  · rw [List.all_eq_true]
    have hl : ∀ v ∈ List.ofFn (fun j => KVar.one (X j)), v.len = n := by
      intro v hv
      obtain ⟨j, rfl⟩ := List.mem_ofFn.1 hv
      exact hX j
    intro v hv
    rw [decide_eq_true_eq, hl v hv, hl]
    cases hd : List.ofFn (fun j => KVar.one (X j)) with
    | nil => rw [hd] at hv; simp at hv
    | cons a l => simp

example (eig : Eig) (he : EigOK eig) := C71_joint_value eig he gEx (by norm_num) (by norm_num) gEx_length gEx_spread 1 one_pos 1 le_rfl (.num 2)
  (by norm_num [Base.Valid])

theorem gMIArgs {X : Fin m → List ℝ} (hm : 2 ≤ m) (hn : 2 ≤ n) (hX : ∀ j, (X j).length = n) :
    MIArgs (List.ofFn (fun j => KVar.one (X j))) n := by
  refine ⟨by simpa using hm, by omega, ?_, ?_⟩
  · intro v hv
    obtain ⟨j, rfl⟩ := List.mem_ofFn.1 hv
    exact hX j
  · intro v hv
    obtain ⟨j, rfl⟩ := List.mem_ofFn.1 hv
    exact KVar.wf_one _

theorem gMILocal {eig : Eig} (he : EigOK eig) {X : Fin m → List ℝ} (hm : 2 ≤ m) (F : Fit n X) {h : ℝ} (hh : 0 < h)
    {w : Int} (hw : 1 ≤ w) {b : Base} (hb : b.Valid) :
    kernelMICalc (gaussCfg eig h w) b ((List.ofFn X).map col) = .ok ((List.range n).map (fun t =>
      Real.log (gaussJoint n X h (atTime X t) / ∏ j, gauss1 (X j) h ((X j).getD t 0)) / b.ln)) := by
  unfold kernelMICalc
  rw [stack_series (by omega) F.len]
  simp only [bind, Except.bind]
  rw [kde_arrOf he F hh hw]
  simp only
  rw [List.mapM_map, mapM_ok (g := fun xs : List ℝ => (List.range n).map (fun t => gauss1 xs h (xs.getD t 0)))]
  swap
  · intro xs hx
    obtain ⟨j, rfl⟩ := List.mem_ofFn.1 hx
    exact kde_col he (F.len j) F.two (covOf_diag_pos F.pd j) hh hw
  simp only [List.length_map, List.length_range]
  refine mapM_ok _ fun t ht => ?_
  have ht' := List.mem_range.1 ht
  have e1 : ((List.range n).map (fun t => gaussJoint n X h (atTime X t))).getD t 0 = gaussJoint n X h (atTime X t) := by
    simp [List.getD_eq_getElem?_getD, ht']
  have e2 : (((List.ofFn X).map (fun xs : List ℝ => (List.range n).map (fun t => gauss1 xs h (xs.getD t 0)))).map
      (fun d => d.getD t 0)).prod = ∏ j, gauss1 (X j) h ((X j).getD t 0) := by
    rw [List.map_map, List.map_ofFn, List.prod_ofFn]
    refine Finset.prod_congr rfl fun j _ => ?_
    simp [List.getD_eq_getElem?_getD, ht']
  rw [e1, e2]
  refine logBase_ok hb (div_pos (gaussJoint_pos F hh _) (Finset.prod_pos fun j _ => ?_))
  exact gauss1_pos (by rw [F.len j]; exact F.two) (covOf_diag_pos F.pd j) hh _

/-- Mutual information of two or more series: the mean log-ratio of the joint density estimate and the product of the
individual ones. -/
theorem C71_mi_value (eig : Eig) (he : EigOK eig) (X : Fin m → List ℝ) (hm : 2 ≤ m) (hn : 2 ≤ n) (hX : ∀ j, (X j).length = n)
    (hs : Spread X) (h : ℝ) (hh : 0 < h) (w : Int) (hw : 1 ≤ w) (b : Base) (hb : b.Valid) :
    kernelMI (List.ofFn (fun j => KVar.one (X j))) (some 0) false (gaussCfg eig h w) b = .ok (gaussMI n X h / b.ln) := by
  have F := fit_spread (by omega) hn hX hs
  unfold kernelMI kernelMILocal
  rw [kmiInit_zero (gMIArgs hm hn hX)]
  simp only [bind, Except.bind]
  have e : (List.ofFn (fun j => KVar.one (X j))).map assure2d = (List.ofFn X).map col := by
    rw [List.map_ofFn, List.map_ofFn]; rfl
  rw [e, gMILocal he hm F hh hw hb]
  simp only
  rw [gMean hn]
  rfl

example (eig : Eig) (he : EigOK eig) := C71_mi_value eig he gEx (by norm_num) (by norm_num) gEx_length gEx_spread 1 one_pos 1 le_rfl (.num 2)
  (by norm_num [Base.Valid])

/-- It is the sum of the entropies minus the joint entropy. -/
theorem C71_mi_identity (eig : Eig) (he : EigOK eig) (X : Fin m → List ℝ) (hm : 2 ≤ m) (hn : 2 ≤ n) (hX : ∀ j, (X j).length = n)
    (hs : Spread X) (h : ℝ) (hh : 0 < h) (w : Int) (hw : 1 ≤ w) (b : Base) (hb : b.Valid) :
    ∃ (H : Fin m → ℝ) (J : ℝ), (∀ j, kernelEntropy [.arr (.one (X j))] (gaussCfg eig h w) b = .ok (H j)) ∧
      kernelEntropy [.tup (List.ofFn (fun j => KVar.one (X j)))] (gaussCfg eig h w) b = .ok J ∧
      kernelMI (List.ofFn (fun j => KVar.one (X j))) (some 0) false (gaussCfg eig h w) b = .ok (∑ j, H j - J) := by
  have F := fit_spread (by omega : 1 ≤ m) hn hX hs
  refine ⟨_, _, fun j => C71_entropy_value eig he (X j) (by rw [hX j]; exact hn) (covOf_diag_pos F.pd j) h hh w hw b hb,
    C71_joint_value eig he X (by omega) hn hX hs h hh w hw b hb, ?_⟩
  rw [C71_mi_value eig he X hm hn hX hs h hh w hw b hb]
  congr 1
  rw [← Finset.sum_div, ← sub_div]
  congr 1
  unfold gaussMI gaussEntropy
  have e1 : ∀ t, Real.log (gaussJoint n X h (atTime X t) / ∏ j, gauss1 (X j) h ((X j).getD t 0)) =
      (∑ j, - Real.log (gauss1 (X j) h ((X j).getD t 0))) - (- Real.log (gaussJoint n X h (atTime X t))) := by
    intro t
    have hp : ∀ j, gauss1 (X j) h ((X j).getD t 0) ≠ 0 := fun j =>
      (gauss1_pos (by rw [hX j]; exact hn) (covOf_diag_pos F.pd j) hh _).ne'
    rw [Real.log_div (gaussJoint_pos F hh _).ne' (Finset.prod_ne_zero_iff.2 fun j _ => hp j),
      Real.log_prod (fun j _ => hp j), Finset.sum_neg_distrib]
    ring
  simp only [e1]
  rw [Verif.mean_sub]
  congr 1
  have e2 : ∀ (l : List Nat) (f : Fin m → Nat → ℝ), mean (l.map (fun t => ∑ j, f j t)) = ∑ j, mean (l.map (f j)) := by
    intro l f
    unfold mean
    simp only [List.length_map]
    rw [← Finset.sum_div]
    congr 1
    induction l with
    | nil => simp
    | cons a l ih => simp [ih, Finset.sum_add_distrib]
  rw [e2]
  refine Finset.sum_congr rfl fun j _ => ?_
  congr 1
  conv_rhs => rw [← range_getD (X j) (hX j), List.map_map]
  refine List.map_congr_left fun t _ => ?_
  simp only [Function.comp]
  rw [range_getD (X j) (hX j)]

example (eig : Eig) (he : EigOK eig) := C71_mi_identity eig he gEx (by norm_num) (by norm_num) gEx_length gEx_spread 1 one_pos 1 le_rfl (.num 2)
  (by norm_num [Base.Valid])

end Verif
