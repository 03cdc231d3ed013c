import Verif.Props.Gauss

/-! # C71: affine maps, bounds and errors of the Gaussian kernel estimators -/

namespace Verif

open Matrix Spec

variable {m n : Nat}

/-- the series `∑ₖ A j k · Xₖ + cⱼ` -/
noncomputable def mixSeries (n : Nat) (A : Matrix (Fin m) (Fin m) ℝ) (c : Fin m → ℝ) (X : Fin m → List ℝ) : Fin m → List ℝ :=
  fun j => (List.range n).map (fun t => ∑ k, A j k * (X k).getD t 0 + c j)

theorem mix_length (A : Matrix (Fin m) (Fin m) ℝ) (c : Fin m → ℝ) (X : Fin m → List ℝ) (j : Fin m) :
    (mixSeries n A c X j).length = n := by simp [mixSeries]

theorem mix_atTime (A : Matrix (Fin m) (Fin m) ℝ) (c : Fin m → ℝ) (X : Fin m → List ℝ) {t : Nat} (ht : t < n) :
    atTime (mixSeries n A c X) t = affVec A c (atTime X t) := by
  funext j
  simp [atTime, mixSeries, affVec, mulVec, dotProduct, List.getD_eq_getElem?_getD, ht]

theorem mix_pts (A : Matrix (Fin m) (Fin m) ℝ) (c : Fin m → ℝ) (X : Fin m → List ℝ) :
    (List.range n).map (atTime (mixSeries n A c X)) = ((List.range n).map (atTime X)).map (affVec A c) := by
  rw [List.map_map]
  exact List.map_congr_left fun t ht => mix_atTime A c X (List.mem_range.1 ht)

theorem gaussJoint_mix {X : Fin m → List ℝ} (hn : 2 ≤ n) (hX : ∀ j, (X j).length = n) {A : Matrix (Fin m) (Fin m) ℝ} (hA : A.det ≠ 0)
    (c : Fin m → ℝ) (h : ℝ) {t : Nat} (ht : t < n) :
    gaussJoint n (mixSeries n A c X) h (atTime (mixSeries n A c X) t) = gaussJoint n X h (atTime X t) / |A.det| := by
  rw [← gaussAt_atTime (mix_length A c X), ← gaussAt_atTime hX, mix_pts, mix_atTime A c X ht]
  refine gaussAt_affine A hA c ?_ h _
  simp
  omega

theorem covOf_mix {X : Fin m → List ℝ} (hn : 2 ≤ n) (hX : ∀ j, (X j).length = n) (A : Matrix (Fin m) (Fin m) ℝ) (c : Fin m → ℝ) :
    covOf (mixSeries n A c X) = A * covOf X * Aᵀ := by
  rw [← covMat_atTime (mix_length A c X), ← covMat_atTime hX, mix_pts, covMat_affine]
  simp
  omega

theorem fit_mix {X : Fin m → List ℝ} (F : Fit n X) {A : Matrix (Fin m) (Fin m) ℝ} (hA : A.det ≠ 0) (c : Fin m → ℝ)
    (hs : 1 < m → Spread (mixSeries n A c X)) : Fit n (mixSeries n A c X) := by
  refine ⟨F.two, F.one, mix_length A c X, ?_, hs⟩
  rw [covOf_mix F.two F.len, posDef_affine A hA]
  exact F.pd

theorem gMean_add (hn : 2 ≤ n) (g : Nat → ℝ) (c : ℝ) :
    mean ((List.range n).map (fun t => g t + c)) = mean ((List.range n).map g) + c := by
  have hn' : (n : ℝ) ≠ 0 := by
    have : 0 < n := by omega
    positivity
  unfold mean
  rw [gSum_add_const (List.range n) g c]
  simp only [List.length_map, List.length_range, nsmul_eq_mul]
  field_simp

theorem gaussEntropy_mix {X : Fin m → List ℝ} (F : Fit n X) {A : Matrix (Fin m) (Fin m) ℝ} (hA : A.det ≠ 0) (c : Fin m → ℝ)
    {h : ℝ} (hh : 0 < h) : gaussEntropy n (mixSeries n A c X) h = gaussEntropy n X h + Real.log |A.det| := by
  unfold gaussEntropy
  rw [← gMean_add F.two]
  congr 1
  refine List.map_congr_left fun t ht => ?_
  rw [gaussJoint_mix F.two F.len hA c h (List.mem_range.1 ht), Real.log_div (gaussJoint_pos F hh _).ne' (abs_pos.2 hA).ne']
  ring

/-- Invertible affine change of coordinates of the joint space: the joint entropy grows by `log |det A|`, exactly as
differential entropy does — as long as no direction falls below the cut-off on either side. -/
theorem C71_joint_affine (eig : Eig) (he : EigOK eig) (X : Fin m → List ℝ) (hm : 1 ≤ m) (hn : 2 ≤ n) (hX : ∀ j, (X j).length = n)
    (A : Matrix (Fin m) (Fin m) ℝ) (hA : A.det ≠ 0) (c : Fin m → ℝ) (hs : Spread X) (hs' : Spread (mixSeries n A c X))
    (h : ℝ) (hh : 0 < h) (w : Int) (hw : 1 ≤ w) (b : Base) (hb : b.Valid) :
    ∃ v, kernelEntropy [.tup (List.ofFn (fun j => KVar.one (X j)))] (gaussCfg eig h w) b = .ok v ∧
      kernelEntropy [.tup (List.ofFn (fun j => KVar.one (mixSeries n A c X j)))] (gaussCfg eig h w) b =
        .ok (v + Real.log |A.det| / b.ln) := by
  refine ⟨_, C71_joint_value eig he X hm hn hX hs h hh w hw b hb, ?_⟩
  rw [C71_joint_value eig he _ hm hn (mix_length A c X) hs' h hh w hw b hb,
    gaussEntropy_mix (fit_spread hm hn hX hs) hA c hh, add_div]

/-- sum and difference of two series -/
example (eig : Eig) (he : EigOK eig) := C71_joint_affine eig he gPair (by norm_num) (by norm_num) gPair_length !![1, 1; 1, -1]
  (by norm_num [Matrix.det_fin_two]) ![5, 7] gPair_spread
  (by
    have e : mixSeries 3 !![1, 1; 1, -1] ![5, 7] gPair = ![[5, 8, 8], [7, 6, 8]] := by
      funext j
      fin_cases j <;> norm_num [mixSeries, gPair, List.range_succ, Fin.sum_univ_two]
    have hc : covOf ![([5, 8, 8] : List ℝ), [7, 6, 8]] = !![3, 0; 0, 1] := by
      ext i j
      fin_cases i <;> fin_cases j <;> norm_num [covOf, sampleCov, mean]
    intro v hv
    rw [e, hc]
    simp only [dotProduct, Fin.sum_univ_two, mulVec] at hv ⊢
    simp
    nlinarith [mul_self_nonneg (v 0), hv])
  1 one_pos 1 le_rfl (.num 2) (by norm_num [Base.Valid])

/-- the series `a x + c` -/
noncomputable def scaleSeries (a c : ℝ) (xs : List ℝ) : List ℝ := xs.map (fun x => a * x + c)

theorem scale_eq_mix (a c : Fin m → ℝ) {X : Fin m → List ℝ} (hX : ∀ j, (X j).length = n) :
    (fun j => scaleSeries (a j) (c j) (X j)) = mixSeries n (Matrix.diagonal a) c X := by
  funext j
  unfold scaleSeries mixSeries
  conv_lhs => rw [← range_getD (X j) (hX j), List.map_map]
  refine List.map_congr_left fun t _ => ?_
  simp [Function.comp, Matrix.diagonal_apply]

theorem sampleVar_scale (a c : ℝ) {xs : List ℝ} (hn : 2 ≤ xs.length) : sampleVar (scaleSeries a c xs) = a ^ 2 * sampleVar xs := by
  have h1 := covOf_mix (n := xs.length) (X := fun _ : Fin 1 => xs) hn (fun _ => rfl) (Matrix.diagonal (fun _ => a)) (fun _ => c)
  rw [← scale_eq_mix (fun _ => a) (fun _ => c) (fun _ => rfl)] at h1
  have h2 := congrFun (congrFun h1 0) 0
  simp only [covOf, Matrix.diagonal_transpose, Matrix.mul_diagonal, Matrix.diagonal_mul] at h2
  unfold sampleVar
  rw [h2]
  ring

theorem gauss1_scale {a : ℝ} (ha : a ≠ 0) (c : ℝ) {xs : List ℝ} (hn : 2 ≤ xs.length) (h x : ℝ) :
    gauss1 (scaleSeries a c xs) h (a * x + c) = gauss1 xs h x / |a| := by
  have hv := sampleVar_scale a c hn
  unfold gauss1 mean
  rw [hv]
  unfold scaleSeries
  rw [List.map_map]
  simp only [List.length_map]
  have e : ∀ μ, normal1 (a * μ + c) (h ^ 2 * (a ^ 2 * sampleVar xs)) (a * x + c) = normal1 μ (h ^ 2 * sampleVar xs) x / |a| := by
    intro μ
    unfold normal1
    have e1 : -(a * x + c - (a * μ + c)) ^ 2 / (2 * (h ^ 2 * (a ^ 2 * sampleVar xs))) = -(x - μ) ^ 2 / (2 * (h ^ 2 * sampleVar xs)) := by
      have : -(a * x + c - (a * μ + c)) ^ 2 = a ^ 2 * (-(x - μ) ^ 2) := by ring
      rw [this, show 2 * (h ^ 2 * (a ^ 2 * sampleVar xs)) = a ^ 2 * (2 * (h ^ 2 * sampleVar xs)) by ring,
        mul_div_mul_left _ _ (pow_ne_zero 2 ha)]
    have e2 : 2 * Real.pi * (h ^ 2 * (a ^ 2 * sampleVar xs)) = a ^ 2 * (2 * Real.pi * (h ^ 2 * sampleVar xs)) := by ring
    rw [e1, e2, Real.sqrt_mul (sq_nonneg a), Real.sqrt_sq_eq_abs, div_div, mul_comm |a|]
  have e3 : xs.map ((fun μ => normal1 μ (h ^ 2 * (a ^ 2 * sampleVar xs)) (a * x + c)) ∘ fun x => a * x + c) =
      xs.map (fun μ => normal1 μ (h ^ 2 * sampleVar xs) x / |a|) := List.map_congr_left fun μ _ => e μ
  rw [e3, sum_map_div_const]
  ring

/-- Entropy of one rescaled series: shifted by `log |a|`, whatever the units. -/
theorem C71_entropy_affine (eig : Eig) (he : EigOK eig) (xs : List ℝ) (hn : 2 ≤ xs.length) (hv : 0 < sampleVar xs) (a : ℝ) (ha : a ≠ 0)
    (c : ℝ) (h : ℝ) (hh : 0 < h) (w : Int) (hw : 1 ≤ w) (b : Base) (hb : b.Valid) :
    ∃ v, kernelEntropy [.arr (.one xs)] (gaussCfg eig h w) b = .ok v ∧
      kernelEntropy [.arr (.one (xs.map (fun x => a * x + c)))] (gaussCfg eig h w) b = .ok (v + Real.log |a| / b.ln) := by
  refine ⟨_, C71_entropy_value eig he xs hn hv h hh w hw b hb, ?_⟩
  have hv' : 0 < sampleVar (scaleSeries a c xs) := by rw [sampleVar_scale a c hn]; positivity
  have := C71_entropy_value eig he (scaleSeries a c xs) (by simpa [scaleSeries] using hn) hv' h hh w hw b hb
  rw [show xs.map (fun x => a * x + c) = scaleSeries a c xs from rfl, this, ← add_div]
  congr 2
  have e : ∀ x, - Real.log (gauss1 (scaleSeries a c xs) h (a * x + c)) = - Real.log (gauss1 xs h x) + Real.log |a| := by
    intro x
    rw [gauss1_scale ha c hn, Real.log_div (gauss1_pos hn hv hh x).ne' (abs_pos.2 ha).ne']
    ring
  have e2 : (scaleSeries a c xs).map (fun x => - Real.log (gauss1 (scaleSeries a c xs) h x)) =
      xs.map (fun x => - Real.log (gauss1 xs h x) + Real.log |a|) := by
    conv_lhs => rw [show ∀ f : ℝ → ℝ, (scaleSeries a c xs).map f = xs.map (fun x => f (a * x + c)) from fun f => by
      unfold scaleSeries; rw [List.map_map]; rfl]
    exact List.map_congr_left fun x _ => e x
  rw [e2]
  have hn' : (xs.length : ℝ) ≠ 0 := by
    have : 0 < xs.length := by omega
    positivity
  unfold mean
  rw [gSum_add_const xs (fun x => - Real.log (gauss1 xs h x)) (Real.log |a|)]
  simp only [List.length_map, nsmul_eq_mul]
  field_simp

example (eig : Eig) (he : EigOK eig) := C71_entropy_affine eig he [0, 1, 0, 1] (by simp) gVar_pos (-3) (by norm_num) 5 1 one_pos 3 (by norm_num)
  (.num 2) (by norm_num [Base.Valid])

theorem gaussMI_scale {X : Fin m → List ℝ} (hn : 2 ≤ n) (hX : ∀ j, (X j).length = n) {a : Fin m → ℝ} (ha : ∀ j, a j ≠ 0) (c : Fin m → ℝ)
    (h : ℝ) : gaussMI n (fun j => scaleSeries (a j) (c j) (X j)) h = gaussMI n X h := by
  unfold gaussMI
  congr 1
  refine List.map_congr_left fun t ht => ?_
  have ht' := List.mem_range.1 ht
  have hd : (Matrix.diagonal a).det ≠ 0 := by
    rw [Matrix.det_diagonal]
    exact Finset.prod_ne_zero_iff.2 fun j _ => ha j
  have e1 := gaussJoint_mix hn hX hd c h ht'
  rw [← scale_eq_mix a c hX] at e1
  have e2 : ∀ j, gauss1 (scaleSeries (a j) (c j) (X j)) h ((scaleSeries (a j) (c j) (X j)).getD t 0) =
      gauss1 (X j) h ((X j).getD t 0) / |a j| := by
    intro j
    rw [← gauss1_scale (ha j) (c j) (by rw [hX j]; exact hn)]
    congr 1
    have : t < (X j).length := by rw [hX j]; exact ht'
    simp [scaleSeries, List.getD_eq_getElem?_getD, this]
  rw [e1]
  simp only [e2]
  rw [Finset.prod_div_distrib, Matrix.det_diagonal, Finset.abs_prod]
  congr 1
  have : ∏ j, |a j| ≠ 0 := Finset.prod_ne_zero_iff.2 fun j _ => abs_ne_zero.2 (ha j)
  rw [div_div_div_cancel_right₀ this]

/-- Mutual information does not depend on the units of the variables — as long as no direction falls below the cut-off. -/
theorem C71_mi_affine (eig : Eig) (he : EigOK eig) (X : Fin m → List ℝ) (hm : 2 ≤ m) (hn : 2 ≤ n) (hX : ∀ j, (X j).length = n)
    (a c : Fin m → ℝ) (ha : ∀ j, a j ≠ 0) (hs : Spread X) (hs' : Spread (fun j => (X j).map (fun x => a j * x + c j)))
    (h : ℝ) (hh : 0 < h) (w : Int) (hw : 1 ≤ w) (b : Base) (hb : b.Valid) :
    ∃ v, kernelMI (List.ofFn (fun j => KVar.one (X j))) (some 0) false (gaussCfg eig h w) b = .ok v ∧
      kernelMI (List.ofFn (fun j => KVar.one ((X j).map (fun x => a j * x + c j)))) (some 0) false (gaussCfg eig h w) b = .ok v := by
  refine ⟨_, C71_mi_value eig he X hm hn hX hs h hh w hw b hb, ?_⟩
  rw [C71_mi_value eig he (fun j => (X j).map (fun x => a j * x + c j)) hm hn (by simpa using hX) hs' h hh w hw b hb]
  congr 2
  exact gaussMI_scale hn hX ha c h

example (eig : Eig) (he : EigOK eig) := C71_mi_affine eig he gEx (by norm_num) (by norm_num) gEx_length ![2, -1, 3] ![5, 0, 7]
  (by intro j; fin_cases j <;> norm_num) gEx_spread
  (gSpread_affine (r := 1 / 3) (by norm_num) gEx_cov gEx_ne ![2, -1, 3] ![5, 0, 7] (by intro j; fin_cases j <;> norm_num)) 1 one_pos 1 le_rfl
  (.num 2) (by norm_num [Base.Valid])

theorem kmiInit_normalize (data : List KVar) (o : Option Int) :
    kmiInit data o true = (kmiInit data o false >>= fun d => if d.any KVar.is2d then .error .valueError else d.mapM normVar) := by
  unfold kmiInit
  simp only [bind, Except.bind, pure, Except.pure, if_true, Bool.false_eq_true, if_false]
  by_cases h1 : data.length < 2
  · simp only [if_pos h1]
  simp only [if_neg h1]
  by_cases h2 : data.length > 2 ∧ ¬ (o = some 0 ∨ o = none)
  · simp only [if_pos h2]
  simp only [if_neg h2]
  by_cases h3 : (data.all fun v => decide (v.len = (data.headD (KVar.one [])).len)) = false
  · simp only [if_pos h3]
  simp only [if_neg h3]
  cases o with
  | none => rfl
  | some o =>
    simp only
    by_cases h4 : o > 0
    · simp only [if_pos h4]
    simp only [if_neg h4]
    by_cases h5 : o < 0
    · simp only [if_pos h5]
    simp only [if_neg h5]

/-- Hence `normalize=True` changes nothing. -/
theorem C71_normalize_irrelevant (eig : Eig) (he : EigOK eig) (X N : Fin m → List ℝ) (hm : 2 ≤ m) (hn : 2 ≤ n) (hX : ∀ j, (X j).length = n)
    (hN : ∀ j, normalize01 (X j) = .ok (N j)) (hs : Spread X) (hs' : Spread N) (h : ℝ) (hh : 0 < h) (w : Int) (hw : 1 ≤ w)
    (b : Base) (hb : b.Valid) :
    ∃ v, kernelMI (List.ofFn (fun j => KVar.one (X j))) (some 0) false (gaussCfg eig h w) b = .ok v ∧
      kernelMI (List.ofFn (fun j => KVar.one (X j))) (some 0) true (gaussCfg eig h w) b = .ok v := by
  have aff : ∀ j, ∃ a c : ℝ, a ≠ 0 ∧ N j = (X j).map (fun x => a * x + c) := by
    intro j
    have := hN j
    unfold normalize01 at this
    cases hx : X j with
    | nil => rw [hx] at this; simp at this
    | cons x r =>
      rw [hx] at this
      simp only at this
      split_ifs at this with h0
      simp only [Except.ok.injEq] at this
      refine ⟨1 / (colMax x r - colMin x r), - colMin x r / (colMax x r - colMin x r), by
        simpa using h0, ?_⟩
      rw [← this]
      refine List.map_congr_left fun y _ => ?_
      ring
  choose a c ha hac using aff
  obtain ⟨v, h1, h2⟩ := C71_mi_affine eig he X hm hn hX a c ha hs (by
    have : (fun j => (X j).map (fun x => a j * x + c j)) = N := by funext j; exact (hac j).symm
    rw [this]; exact hs') h hh w hw b hb
  refine ⟨v, h1, ?_⟩
  have e : kmiInit (List.ofFn (fun j => KVar.one (X j))) (some 0) true =
      kmiInit (List.ofFn (fun j => KVar.one ((X j).map (fun x => a j * x + c j)))) (some 0) false := by
    rw [kmiInit_zero (gMIArgs hm hn (by simpa using hX))]
    rw [kmiInit_normalize, kmiInit_zero (gMIArgs hm hn hX)]
    simp only [bind, Except.bind]
    rw [if_neg]
    · have em : ∀ v ∈ List.ofFn X, normVar (KVar.one v) = .ok (match normalize01 v with | .ok y => KVar.one y | .error _ => KVar.one v) := by
        intro v hv
        obtain ⟨j, rfl⟩ := List.mem_ofFn.1 hv
        simp [normVar, hN j, Except.map]
      have e3 : List.ofFn (fun j => KVar.one (X j)) = (List.ofFn X).map KVar.one := by rw [List.map_ofFn]; rfl
      rw [e3, List.mapM_map, mapM_ok (f := normVar ∘ KVar.one) _ em, List.map_ofFn]
      congr 1
      congr 1
      funext j
      simp only [Function.comp, hN j]
      rw [hac j]
    · simp only [List.any_eq_true, not_exists, not_and]
      intro v hv
      obtain ⟨j, rfl⟩ := List.mem_ofFn.1 hv
      simp [KVar.is2d]
  unfold kernelMI kernelMILocal at h2 ⊢
  rw [e]
  exact h2

example (eig : Eig) (he : EigOK eig) := C71_normalize_irrelevant (n := 4) eig he (fun j => (gEx j).map (fun x => (2:ℝ) * x + 5)) gEx (by norm_num) (by norm_num)
  (by intro j; simpa using gEx_length j)
  (by
    intro j
    fin_cases j <;> norm_num [gEx, normalize01, colMax, colMin])
  (gSpread_affine (r := 1 / 3) (by norm_num) gEx_cov gEx_ne (fun _ => 2) (fun _ => 5) (by norm_num)) gEx_spread 1 one_pos 1 le_rfl
  (.num 2) (by norm_num [Base.Valid])

end Verif
