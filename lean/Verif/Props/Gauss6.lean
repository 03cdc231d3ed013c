import Verif.Props.Gauss5
import Mathlib.LinearAlgebra.FiniteDimensional.Lemmas

/-! # C71: linearly dependent variables and the Gaussian kernel estimators -/

namespace Verif

open Matrix Spec

variable {m n : Nat}

theorem rankOne_eig {eig : Eig} (he : EigOK eig) {a : Fin m → ℝ} {s : ℝ} (hs : 1 / 10 ^ 10 < s * (a ⬝ᵥ a)) (hs0 : 0 < s) :
    numLarge (eig m (s • vecMulVec a a)) = 1 ∧
      ∃ q : ℝ, ((eig m (s • vecMulVec a a)).getD 0 (0, 0)).2 = q • a ∧ q ^ 2 * (a ⬝ᵥ a) = 1 := by
  have hA : 0 < a ⬝ᵥ a := by
    have : 0 < s * (a ⬝ᵥ a) := lt_trans (by positivity) hs
    exact pos_of_mul_pos_right this hs0.le
  have hsym : (s • vecMulVec a a).IsSymm := by
    rw [Matrix.IsSymm, transpose_smul, transpose_vecMulVec]
  obtain ⟨h1, h2, h3, h4⟩ := he m _ hsym
  have hmul : ∀ v : Fin m → ℝ, (s • vecMulVec a a) *ᵥ v = (s * (a ⬝ᵥ v)) • a := by
    intro v
    rw [smul_mulVec, vecMulVec_mulVec]
    simp [smul_smul]
  -- a large eigenvalue has an eigenvector along `a`
  have hpar : ∀ e ∈ eig m (s • vecMulVec a a), 1 / 10 ^ 10 < e.1 → ∃ q : ℝ, e.2 = q • a ∧ q ^ 2 * (a ⬝ᵥ a) = 1 := by
    intro e hm hl
    obtain ⟨k1, k2⟩ := h2 e hm
    rw [hmul] at k2
    have hl0 : e.1 ≠ 0 := (lt_trans (by positivity) hl).ne'
    have : e.2 = (s * (a ⬝ᵥ e.2) / e.1) • a := by
      rw [div_eq_inv_mul, mul_smul, k2, smul_smul, inv_mul_cancel₀ hl0, one_smul]
    refine ⟨_, this, ?_⟩
    rw [this, smul_dotProduct, dotProduct_smul, smul_eq_mul, smul_eq_mul] at k1
    linarith
  -- a small one has an eigenvector orthogonal to `a`
  have hort : ∀ e ∈ eig m (s • vecMulVec a a), ¬ 1 / 10 ^ 10 < e.1 → a ⬝ᵥ e.2 = 0 := by
    intro e hm hl
    obtain ⟨k1, k2⟩ := h2 e hm
    rw [hmul] at k2
    by_contra h0
    have k3 := congrArg (fun v => a ⬝ᵥ v) k2
    simp only [dotProduct_smul, smul_eq_mul] at k3
    have : e.1 = s * (a ⬝ᵥ a) := by
      have : (s * (a ⬝ᵥ a)) * (a ⬝ᵥ e.2) = e.1 * (a ⬝ᵥ e.2) := by rw [← k3]; ring
      exact (mul_right_cancel₀ h0 this).symm
    rw [this] at hl
    exact hl hs
  have hmem : ∀ i : Fin m, (eig m (s • vecMulVec a a)).getD i (0, 0) ∈ eig m (s • vecMulVec a a) := by
    intro i
    have : (i : Nat) < (eig m (s • vecMulVec a a)).length := by rw [h1]; exact i.2
    rw [List.getD_eq_getElem?_getD, List.getElem?_eq_getElem this]
    exact List.getElem_mem this
  have hex : ∃ i : Fin m, 1 / 10 ^ 10 < ((eig m (s • vecMulVec a a)).getD i (0, 0)).1 := by
    by_contra hno
    push Not at hno
    have hall : ∀ i : Fin m, a ⬝ᵥ ((eig m (s • vecMulVec a a)).getD i (0, 0)).2 = 0 := fun i =>
      hort _ (hmem i) (not_lt.2 (hno i))
    have htop := h3.span_eq_top_of_card_eq_finrank' (by simp)
    have : a ∈ Submodule.span ℝ (Set.range fun i : Fin m => ((eig m (s • vecMulVec a a)).getD i (0, 0)).2) := by
      rw [htop]; trivial
    have h0 : a ⬝ᵥ a = 0 := by
      refine Submodule.span_induction (p := fun x _ => a ⬝ᵥ x = 0) ?_ ?_ ?_ ?_ this
      · rintro x ⟨i, rfl⟩; exact hall i
      · simp
      · intro x y _ _ hx hy; rw [dotProduct_add, hx, hy, add_zero]
      · intro c x _ hx; rw [dotProduct_smul, hx, smul_zero]
    exact hA.ne' h0
  obtain ⟨i0, hi0⟩ := hex
  generalize hl : eig m (s • vecMulVec a a) = l at *
  cases l with
  | nil =>
    have := i0.2
    simp only [List.length_nil] at h1
    omega
  | cons e0 r =>
    have hm0 : 0 < m := by rw [← h1]; simp
    have hbig : 1 / 10 ^ 10 < e0.1 := by
      rcases List.mem_cons.1 (hmem i0) with h | h
      · rw [h] at hi0; exact hi0
      · exact lt_of_lt_of_le hi0 ((List.pairwise_cons.1 h4).1 _ h)
    have hrest : ∀ e ∈ r, ¬ 1 / 10 ^ 10 < e.1 := by
      intro e her hbe
      obtain ⟨k, hk, rfl⟩ := List.getElem_of_mem her
      obtain ⟨q0, hq0, hq0'⟩ := hpar e0 (by simp) hbig
      obtain ⟨q1, hq1, hq1'⟩ := hpar _ (by simp) hbe
      have hk1 : k + 1 < m := by rw [← h1]; simpa using hk
      have hq0n : q0 ≠ 0 := by rintro rfl; simp at hq0'
      have hns := h3.notMem_span_image (s := {⟨0, hm0⟩}) (x := ⟨k + 1, hk1⟩) (by simp)
      apply hns
      rw [Set.image_singleton, Submodule.mem_span_singleton]
      refine ⟨q1 / q0, ?_⟩
      simp only [List.getD_cons_zero, List.getD_cons_succ]
      rw [hq0, List.getD_eq_getElem?_getD, List.getElem?_eq_getElem hk, Option.getD_some, hq1, smul_smul, div_mul_cancel₀ _ hq0n]
    refine ⟨?_, ?_⟩
    · unfold numLarge
      rw [List.countP_cons_of_pos (by simpa using hbig), List.countP_eq_zero.2]
      intro e her
      simpa using hrest e her
    · obtain ⟨q0, hq0, hq0'⟩ := hpar e0 (by simp) hbig
      exact ⟨q0, by simpa using hq0, hq0'⟩

theorem collinear_pts (a c : Fin m → ℝ) {xs : List ℝ} (hx : xs.length = n) :
    (List.range n).map (atTime (fun j => scaleSeries (a j) (c j) xs)) =
      ((List.range n).map (atTime (fun _ : Fin 1 => xs))).map (affVec (Matrix.of fun j (_ : Fin 1) => a j) c) := by
  rw [List.map_map]
  refine List.map_congr_left fun t ht => ?_
  have : t < xs.length := by rw [hx]; exact List.mem_range.1 ht
  funext j
  simp [atTime, affVec, mulVec, dotProduct, scaleSeries, List.getD_eq_getElem?_getD, this]

theorem covOf_collinear (a c : Fin m → ℝ) {xs : List ℝ} (hx : xs.length = n) (hn : 2 ≤ n) :
    covOf (fun j => scaleSeries (a j) (c j) xs) = sampleVar xs • vecMulVec a a := by
  rw [← covMat_atTime (n := n) (by simp [scaleSeries, hx]), collinear_pts a c hx, covMat_affine _ _ (by simp; omega),
    covMat_atTime (fun _ => hx)]
  ext j k
  simp only [Matrix.mul_apply, Finset.univ_unique, Fin.default_eq_zero, Finset.sum_singleton, of_apply, transpose_apply, covOf,
    Matrix.smul_apply, vecMulVec_apply, smul_eq_mul, sampleVar]
  ring

theorem collinear_fit {eig : Eig} (he : EigOK eig) (hm : 2 ≤ m) (a c : Fin m → ℝ) {xs : List ℝ} (hx : xs.length = n) (hn : 2 ≤ n)
    (hs : 1 / 10 ^ 10 < sampleVar xs * ∑ j, a j ^ 2) (hv : 0 < sampleVar xs) {h : ℝ} (hh : 0 < h) :
    ∃ f, gaussFit eig (arrOf n (fun j => scaleSeries (a j) (c j) xs)) h = .ok f ∧
      ∀ t < n, f (List.ofFn (atTime (fun j => scaleSeries (a j) (c j) xs) t)) =
        gauss1 xs h (xs.getD t 0) / Real.sqrt (∑ j, a j ^ 2) := by
  have e2 : a ⬝ᵥ a = ∑ i, a i ^ 2 := by simp [dotProduct, pow_two]
  rw [← e2] at hs ⊢
  set X : Fin m → List ℝ := fun j => scaleSeries (a j) (c j) xs with hXdef
  obtain ⟨hk, q, hq, hq1⟩ := rankOne_eig he hs hv
  have hcov : covMat ((arrOf n X).rows.map (vecOf (arrOf n X).cols)) = sampleVar xs • vecMulVec a a :=
    ((congrArg covMat (ptsOf_arrOf n X)).trans (covMat_atTime (by simp [hXdef, scaleSeries, hx]))).trans (covOf_collinear a c hx hn)
  set l := eig m (sampleVar xs • vecMulVec a a) with hldef
  have hl : eig (arrOf n X).cols (covMat ((arrOf n X).rows.map (vecOf (arrOf n X).cols))) = l := by
    rw [hcov]; rfl
  -- the projected points are an affine image of the series
  have hpp : ∀ t < n, projVec l 1 (atTime X t) =
      affVec (Matrix.diagonal fun _ : Fin 1 => q * (a ⬝ᵥ a)) (fun _ => q * (c ⬝ᵥ a)) (atTime (fun _ : Fin 1 => xs) t) := by
    intro t ht
    have htl : t < xs.length := by omega
    funext j
    have hj : j = 0 := Subsingleton.elim _ _
    subst hj
    have hX' : atTime X t = (xs.getD t 0) • a + c := by
      funext i
      simp [atTime, hXdef, scaleSeries, List.getD_eq_getElem?_getD, htl]
      ring
    simp only [projVec, Fin.val_zero, affVec, mulVec_diagonal, Pi.add_apply, hX']
    rw [hq, dotProduct_smul, add_dotProduct, smul_dotProduct]
    simp only [smul_eq_mul, atTime]
    ring
  have hpts : ((List.range n).map (atTime X)).map (projVec l 1) = ((List.range n).map (atTime (fun _ : Fin 1 => xs))).map
      (affVec (Matrix.diagonal fun _ : Fin 1 => q * (a ⬝ᵥ a)) (fun _ => q * (c ⬝ᵥ a))) := by
    rw [List.map_map, List.map_map]
    exact List.map_congr_left fun t ht => hpp t (List.mem_range.1 ht)
  have hA : 0 < a ⬝ᵥ a := pos_of_mul_pos_right (lt_trans (by positivity) hs) hv.le
  have hq0 : q ≠ 0 := by rintro rfl; simp at hq1
  have hdet : (Matrix.diagonal fun _ : Fin 1 => q * (a ⬝ᵥ a)).det ≠ 0 := by
    rw [Matrix.det_diagonal]
    simp [hq0, hA.ne']
  have habs : |(Matrix.diagonal fun _ : Fin 1 => q * (a ⬝ᵥ a)).det| = Real.sqrt (a ⬝ᵥ a) := by
    rw [Matrix.det_diagonal, Finset.univ_unique, Finset.prod_singleton, ← Real.sqrt_sq_eq_abs]
    congr 1
    have : (q * (a ⬝ᵥ a)) ^ 2 = (q ^ 2 * (a ⬝ᵥ a)) * (a ⬝ᵥ a) := by ring
    rw [this, hq1, one_mul]
  have hne : ((List.range n).map (atTime (fun _ : Fin 1 => xs))) ≠ [] := by simp; omega
  have F1 := fit_one hx hn hv
  have hkde : gaussKde (((List.range n).map (atTime X)).map (projVec l 1)) h =
      .ok (gaussAt (((List.range n).map (atTime X)).map (projVec l 1)) h) := by
    unfold gaussKde
    rw [if_neg (by simp; omega), if_pos]
    refine ⟨?_, by simp; omega⟩
    rw [hpts, covMat_affine _ _ hne, posDef_affine _ hdet, covMat_atTime (fun _ => hx)]
    exact F1.pd
  have hptsX : (arrOf n X).rows.map (vecOf (arrOf n X).cols) = (List.range n).map (atTime X) := ptsOf_arrOf n X
  refine ⟨fun x => gaussAt (((List.range n).map (atTime X)).map (projVec l 1)) h (projVec l 1 (vecOf m x)), ?_, ?_⟩
  · unfold gaussFit
    simp only
    rw [hl]
    rw [if_pos (show 1 < (arrOf n X).cols by show 1 < m; omega)]
    have hk' : numLarge (d := (arrOf n X).cols) l = 1 := hk
    rw [if_pos (show numLarge (d := (arrOf n X).cols) l < (arrOf n X).cols by rw [hk']; show 1 < m; omega)]
    have : (gaussKde (((arrOf n X).rows.map (vecOf (arrOf n X).cols)).map (projVec l (numLarge (d := (arrOf n X).cols) l))) h).bind
        (fun f => Except.ok (fun x => f (projVec l (numLarge (d := (arrOf n X).cols) l) (vecOf (arrOf n X).cols x)))) =
        Except.ok (fun x => gaussAt (((List.range n).map (atTime X)).map (projVec l 1)) h (projVec l 1 (vecOf m x))) := by
      rw [hk']
      exact (congrArg (fun P : List (Fin m → ℝ) => (gaussKde (P.map (projVec l 1)) h).bind
        (fun f => Except.ok (fun x => f (projVec l 1 (vecOf m x))))) hptsX).trans (by rw [hkde]; rfl)
    exact this
  · intro t ht
    simp only
    rw [vecOf_ofFn, hpp t ht, hpts, gaussAt_affine _ hdet _ hne, habs, gaussAt_atTime (fun _ => hx), gaussJoint_one hx]
    rfl

theorem collinear_kde {eig : Eig} (he : EigOK eig) (hm : 2 ≤ m) (a c : Fin m → ℝ) {xs : List ℝ} (hx : xs.length = n) (hn : 2 ≤ n)
    (hs : 1 / 10 ^ 10 < sampleVar xs * ∑ j, a j ^ 2) (hv : 0 < sampleVar xs) {h : ℝ} (hh : 0 < h) {w : Int} (hw : 1 ≤ w) :
    kdeDensity (arrOf n (fun j => scaleSeries (a j) (c j) xs)) none (gaussCfg eig h w) =
      .ok ((List.range n).map (fun t => gauss1 xs h (xs.getD t 0) / Real.sqrt (∑ j, a j ^ 2))) := by
  obtain ⟨f, hf, hft⟩ := collinear_fit he hm a c hx hn hs hv hh
  unfold kdeDensity gaussCfg gaussian
  simp only [PyArg.posNumber, if_pos hh, Option.getD_none, ne_eq, not_true_eq_false, if_false]
  rw [hf]
  simp only
  rw [C48_parallel_eq_sequential _ _ _ _ hw (by simp [arrOf]; omega)]
  congr 1
  unfold arrOf
  simp only [List.map_map]
  exact List.map_congr_left fun t ht => hft t (List.mem_range.1 ht)

/-- Variables that are all affine functions `aⱼ x + cⱼ` of one series: the estimator projects to the common line, and the joint
entropy is the entropy of the series plus `½ log ∑ aⱼ²`. -/
theorem C71_collinear_joint (eig : Eig) (he : EigOK eig) (a c : Fin m → ℝ) (hm : 2 ≤ m) (xs : List ℝ) (hn : 2 ≤ xs.length)
    (hv : 0 < sampleVar xs) (hs : 1 / 10 ^ 10 < sampleVar xs * ∑ j, a j ^ 2) (h : ℝ) (hh : 0 < h) (w : Int) (hw : 1 ≤ w)
    (b : Base) (hb : b.Valid) :
    ∃ v, kernelEntropy [.arr (.one xs)] (gaussCfg eig h w) b = .ok v ∧
      kernelEntropy [.tup (List.ofFn (fun j => KVar.one (xs.map (fun x => a j * x + c j))))] (gaussCfg eig h w) b =
        .ok (v + Real.log (∑ j, a j ^ 2) / 2 / b.ln) := by
  refine ⟨_, C71_entropy_value eig he xs hn hv h hh w hw b hb, ?_⟩
  have hA : 0 < ∑ j, a j ^ 2 := pos_of_mul_pos_right (lt_trans (by positivity) hs) hv.le
  have hXl : ∀ j, (scaleSeries (a j) (c j) xs).length = xs.length := by simp [scaleSeries]
  unfold kernelEntropy kernelEntropyLocal
  simp only
  rw [if_pos]
  · have e : (List.ofFn (fun j => KVar.one (xs.map (fun x => a j * x + c j)))).map assure2d =
        (List.ofFn (fun j => scaleSeries (a j) (c j) xs)).map col := by
      rw [List.map_ofFn, List.map_ofFn]; rfl
    rw [e, stack_series (by omega) hXl]
    simp only [bind, Except.bind]
    unfold kernelSimple
    rw [collinear_kde he hm a c rfl hn hs hv hh hw]
    simp only [bind, Except.bind]
    rw [List.mapM_map, mapM_ok (g := fun t => (- Real.log (gauss1 xs h (xs.getD t 0)) + Real.log (∑ j, a j ^ 2) / 2) / b.ln)]
    · simp only [List.length_map, List.length_range]
      rw [if_neg (by omega)]
      simp only [pure, Except.pure]
      rw [gMean hn, gMean_add hn (fun t => - Real.log (gauss1 xs h (xs.getD t 0))), ← add_div]
      congr 4
      conv_rhs => rw [← range_getD xs rfl, List.map_map]
      refine List.map_congr_left fun t _ => ?_
      simp only [Function.comp]
      rw [range_getD xs rfl]
    · intro t _
      simp only [Function.comp]
      have hp := gauss1_pos hn hv hh (xs.getD t 0)
      rw [negLog_ok hb (by positivity), Real.log_div hp.ne' (by positivity), Real.log_sqrt hA.le]
      congr 1
      ring
  · rw [List.all_eq_true]
    have hl : ∀ v ∈ List.ofFn (fun j => KVar.one (xs.map (fun x => a j * x + c j))), v.len = xs.length := by
      intro v hv
      obtain ⟨j, rfl⟩ := List.mem_ofFn.1 hv
      simp [KVar.len]
    intro v hv
    rw [decide_eq_true_eq, hl v hv, hl]
    cases hd : List.ofFn (fun j => KVar.one (xs.map (fun x => a j * x + c j))) with
    | nil => rw [hd] at hv; simp at hv
    | cons a l => simp

example (eig : Eig) (he : EigOK eig) := C71_collinear_joint eig he ![1, 2] ![0, 5] (by norm_num) [2, 5] (by simp) gVar_pos'
  (by norm_num [Fin.sum_univ_two, sampleVar, sampleCov, mean]) 1 one_pos 1 le_rfl (.num 2) (by norm_num [Base.Valid])

/-- Their mutual information is `m-1` times the entropy of the series plus `∑ log |aⱼ| - ½ log ∑ aⱼ²`: finite, and dependent on
the units of the variables. -/
theorem C71_collinear_mi (eig : Eig) (he : EigOK eig) (a c : Fin m → ℝ) (hm : 2 ≤ m) (ha : ∀ j, a j ≠ 0) (xs : List ℝ)
    (hn : 2 ≤ xs.length) (hv : 0 < sampleVar xs) (hs : 1 / 10 ^ 10 < sampleVar xs * ∑ j, a j ^ 2) (h : ℝ) (hh : 0 < h)
    (w : Int) (hw : 1 ≤ w) (b : Base) (hb : b.Valid) :
    ∃ v, kernelEntropy [.arr (.one xs)] (gaussCfg eig h w) b = .ok v ∧
      kernelMI (List.ofFn (fun j => KVar.one (xs.map (fun x => a j * x + c j)))) (some 0) false (gaussCfg eig h w) b =
        .ok ((m - 1) * v + (∑ j, Real.log |a j| - Real.log (∑ j, a j ^ 2) / 2) / b.ln) := by
  refine ⟨_, C71_entropy_value eig he xs hn hv h hh w hw b hb, ?_⟩
  have hA : 0 < ∑ j, a j ^ 2 := pos_of_mul_pos_right (lt_trans (by positivity) hs) hv.le
  have hXl : ∀ j, (scaleSeries (a j) (c j) xs).length = xs.length := by simp [scaleSeries]
  have hvj : ∀ j, 0 < sampleVar (scaleSeries (a j) (c j) xs) := fun j => by
    rw [sampleVar_scale _ _ hn]
    have := ha j
    positivity
  unfold kernelMI kernelMILocal
  rw [show (fun j => KVar.one (xs.map (fun x => a j * x + c j))) = fun j => KVar.one (scaleSeries (a j) (c j) xs) from rfl,
    kmiInit_zero (gMIArgs hm hn hXl)]
  simp only [bind, Except.bind]
  have e : (List.ofFn (fun j => KVar.one (scaleSeries (a j) (c j) xs))).map assure2d =
      (List.ofFn (fun j => scaleSeries (a j) (c j) xs)).map col := by
    rw [List.map_ofFn, List.map_ofFn]; rfl
  rw [e]
  unfold kernelMICalc
  rw [stack_series (by omega) hXl]
  simp only [bind, Except.bind]
  rw [collinear_kde he hm a c rfl hn hs hv hh hw]
  simp only
  rw [List.mapM_map, mapM_ok (g := fun ys : List ℝ => (List.range xs.length).map (fun t => gauss1 ys h (ys.getD t 0)))]
  swap
  · intro ys hy
    obtain ⟨j, rfl⟩ := List.mem_ofFn.1 hy
    exact kde_col he (hXl j) hn (hvj j) hh hw
  simp only [List.length_map, List.length_range]
  rw [mapM_ok (g := fun t => ((m - 1) * (- Real.log (gauss1 xs h (xs.getD t 0))) + (∑ j, Real.log |a j| - Real.log (∑ j, a j ^ 2) / 2)) / b.ln)]
  · simp only
    rw [gMean hn, gMean_add hn (fun t => (m - 1) * (- Real.log (gauss1 xs h (xs.getD t 0)))), add_div, mul_div_assoc']
    congr 3
    conv_rhs => rw [← range_getD xs rfl, List.map_map]
    unfold mean
    simp only [List.length_map]
    rw [mul_div_assoc', ← List.sum_map_mul_left]
    congr 2
    refine List.map_congr_left fun t _ => ?_
    simp only [Function.comp]
    rw [range_getD xs rfl]
  · intro t ht
    have ht' := List.mem_range.1 ht
    have hp := gauss1_pos hn hv hh (xs.getD t 0)
    have e1 : ((List.range xs.length).map (fun t => gauss1 xs h (xs.getD t 0) / Real.sqrt (∑ j, a j ^ 2))).getD t 0 =
        gauss1 xs h (xs.getD t 0) / Real.sqrt (∑ j, a j ^ 2) := by
      simp [List.getD_eq_getElem?_getD, ht']
    have e2 : (((List.ofFn (fun j => scaleSeries (a j) (c j) xs)).map (fun ys : List ℝ => (List.range xs.length).map
        (fun t => gauss1 ys h (ys.getD t 0)))).map (fun d => d.getD t 0)).prod = ∏ j, (gauss1 xs h (xs.getD t 0) / |a j|) := by
      rw [List.map_map, List.map_ofFn, List.prod_ofFn]
      refine Finset.prod_congr rfl fun j _ => ?_
      rw [← gauss1_scale (ha j) (c j) hn]
      simp [List.getD_eq_getElem?_getD, ht', scaleSeries]
    rw [e1, e2]
    have hpj : ∀ j, 0 < gauss1 xs h (xs.getD t 0) / |a j| := fun j => div_pos hp (abs_pos.2 (ha j))
    rw [logBase_ok hb (div_pos (by positivity) (Finset.prod_pos fun j _ => hpj j))]
    congr 2
    rw [Real.log_div (by positivity) (Finset.prod_pos fun j _ => hpj j).ne', Real.log_prod (fun j _ => (hpj j).ne'),
      Real.log_div hp.ne' (by positivity), Real.log_sqrt hA.le]
    have e3 : ∀ j, Real.log (gauss1 xs h (xs.getD t 0) / |a j|) = Real.log (gauss1 xs h (xs.getD t 0)) - Real.log |a j| := fun j =>
      Real.log_div hp.ne' (abs_pos.2 (ha j)).ne'
    simp only [e3, Finset.sum_sub_distrib, Finset.sum_const, Finset.card_univ, Fintype.card_fin, nsmul_eq_mul]
    ring

example (eig : Eig) (he : EigOK eig) := C71_collinear_mi eig he ![1, 2] ![0, 5] (by norm_num) (by intro j; fin_cases j <;> norm_num) [2, 5] (by simp)
  gVar_pos' (by norm_num [Fin.sum_univ_two, sampleVar, sampleCov, mean]) 1 one_pos 1 le_rfl (.num 2) (by norm_num [Base.Valid])

/-- In particular the mutual information of a series with itself is its entropy minus `½ log 2`, not its entropy. -/
theorem C71_self_mi (eig : Eig) (he : EigOK eig) (xs : List ℝ) (hn : 2 ≤ xs.length) (hv : 1 / 10 ^ 10 < sampleVar xs)
    (h : ℝ) (hh : 0 < h) (w : Int) (hw : 1 ≤ w) (b : Base) (hb : b.Valid) :
    ∃ v, kernelEntropy [.arr (.one xs)] (gaussCfg eig h w) b = .ok v ∧
      kernelMI [.one xs, .one xs] (some 0) false (gaussCfg eig h w) b = .ok (v - Real.log 2 / 2 / b.ln) := by
  have hv0 : 0 < sampleVar xs := lt_trans (by positivity) hv
  obtain ⟨v, h1, h2⟩ := C71_collinear_mi eig he (fun _ : Fin 2 => 1) (fun _ => 0) le_rfl (by simp) xs hn hv0 (by
    simp only [one_pow, Finset.sum_const, Finset.card_univ, Fintype.card_fin, nsmul_eq_mul]
    push_cast
    linarith) h hh w hw b hb
  refine ⟨v, h1, ?_⟩
  simp only [one_mul, add_zero, List.map_id', List.ofFn_succ, List.ofFn_zero, abs_one, Real.log_one, one_pow, Finset.sum_const,
    Finset.card_univ, Fintype.card_fin, nsmul_eq_mul, mul_zero, mul_one] at h2
  rw [h2]
  congr 1
  push_cast
  ring

example (eig : Eig) (he : EigOK eig) := C71_self_mi eig he [2, 5] (by simp) (by norm_num [sampleVar, sampleCov, mean]) 1 one_pos 1 le_rfl (.num 2)
  (by norm_num [Base.Valid])

end Verif
