import Verif.Props.Gauss4

/-! # C71: degenerate data and the Gaussian kernel estimators -/

namespace Verif

open Matrix Spec

variable {m n : Nat}

/-! ### errors -/

theorem gaussKde_error {d : Nat} {pts : List (Fin d → ℝ)} {h : ℝ} {e : Exc} (he : gaussKde pts h = .error e) : e = .valueError := by
  unfold gaussKde at he
  split_ifs at he <;> simp_all

theorem gaussFit_error {eig : Eig} {a : Arr} {h : ℝ} {e : Exc} (he : gaussFit eig a h = .error e) : e = .valueError := by
  have key : ∀ {d : Nat} (pts : List (Fin d → ℝ)) (g : ((Fin d → ℝ) → ℝ) → Except Exc (List ℝ → ℝ)) (_ : ∀ f e, g f ≠ .error e),
      (gaussKde pts h).bind g = .error e → e = .valueError := by
    intro d pts g hg hk
    cases hr : gaussKde pts h with
    | error e' =>
      rw [hr] at hk
      simp only [Except.bind, Except.error.injEq] at hk
      rw [← hk]
      exact gaussKde_error hr
    | ok f => rw [hr] at hk; exact absurd hk (hg f e)
  unfold gaussFit at he
  simp only at he
  split_ifs at he
  all_goals exact key _ _ (by intro f e h; simp [pure, Except.pure] at h) he

theorem kde_gauss_error {eig : Eig} {a : Arr} {h : ℝ} {w : Int} (hw : 1 ≤ w) {e : Exc} (hl : a.rows.length ≠ 1)
    (he : kdeDensity a none (gaussCfg eig h w) = .error e) : e = .valueError := by
  unfold kdeDensity gaussCfg gaussian at he
  simp only [PyArg.posNumber, Option.getD_none, ne_eq, not_true_eq_false, if_false] at he
  by_cases hh : 0 < h
  · rw [if_pos hh] at he
    simp only at he
    cases hf : gaussFit eig a h with
    | error e' =>
      rw [hf] at he
      simp only [Except.error.injEq] at he
      rw [← he]
      exact gaussFit_error hf
    | ok f =>
      rw [hf] at he
      simp only at he
      rw [C48_parallel_eq_sequential _ _ _ _ hw hl] at he
      simp at he
  · rw [if_neg hh] at he
    simp only [Except.error.injEq] at he
    exact he.symm

theorem gaussKde_not_pd {d : Nat} {pts : List (Fin d → ℝ)} (h : ℝ) (hp : ¬ (covMat pts).PosDef) : gaussKde pts h = .error .valueError := by
  unfold gaussKde
  split_ifs with h1 h2
  · rfl
  · exact absurd h2.1 hp
  · rfl

theorem gaussFit_col_error {eig : Eig} {xs : List ℝ} (h : ℝ) (hv : sampleVar xs = 0 ∨ xs.length ≤ 1) :
    gaussFit eig (col xs) h = .error .valueError := by
  have hk : gaussKde ((col xs).rows.map (vecOf (col xs).cols)) h = .error .valueError := by
    by_cases h1 : xs.length ≤ 1
    · unfold gaussKde
      rw [if_pos]
      simpa [col, assure2d] using h1
    · have hv' : sampleVar xs = 0 := by tauto
      refine gaussKde_not_pd h fun hp => ?_
      rw [col_arrOf (n := xs.length) rfl] at hp
      have e3 : covMat (ptsOf (arrOf xs.length (fun _ : Fin 1 => xs))) = covOf (fun _ : Fin 1 => xs) :=
        (congrArg covMat (ptsOf_arrOf xs.length _)).trans (covMat_atTime fun _ => rfl)
      have : (covOf (fun _ : Fin 1 => xs)).PosDef := (congrArg Matrix.PosDef e3).mp hp
      have := covOf_diag_pos this 0
      rw [hv'] at this
      exact lt_irrefl _ this
  unfold gaussFit
  simp only
  rw [if_neg (by simp [col, assure2d]), hk]
  rfl

theorem kde_col_error {eig : Eig} {xs : List ℝ} (h : ℝ) (w : Int) (hv : sampleVar xs = 0 ∨ xs.length ≤ 1) :
    kdeDensity (col xs) none (gaussCfg eig h w) = .error .valueError := by
  unfold kdeDensity gaussCfg gaussian
  simp only [PyArg.posNumber, Option.getD_none, ne_eq, not_true_eq_false, if_false]
  by_cases hh : 0 < h
  · rw [if_pos hh]
    simp only
    rw [gaussFit_col_error h hv]
  · rw [if_neg hh]

/-- A constant series, or one of fewer than two samples, is a ValueError. -/
theorem C71_constant_error (eig : Eig) (xs : List ℝ) (hv : sampleVar xs = 0 ∨ xs.length ≤ 1) (h : ℝ) (w : Int) (b : Base) :
    kernelEntropy [.arr (.one xs)] (gaussCfg eig h w) b = .error .valueError := by
  unfold kernelEntropy kernelEntropyLocal
  simp only
  rw [show assure2d (.one xs) = col xs from rfl]
  unfold kernelSimple
  rw [kde_col_error h w hv]
  rfl

example (eig : Eig) := C71_constant_error eig [4, 4, 4] (.inl (by norm_num [sampleVar, sampleCov, mean])) 1 1 .e

theorem gMapM_error_mem {α β : Type} {f : α → Except Exc β} {l : List α} {x : Exc} (hall : ∀ a ∈ l, ∀ e, f a = .error e → e = x)
    (hex : ∃ a ∈ l, f a = .error x) : l.mapM f = .error x := by
  induction l with
  | nil => obtain ⟨a, ha, _⟩ := hex; simp at ha
  | cons a l ih =>
    rw [List.mapM_cons]
    simp only [bind, Except.bind]
    cases hf : f a with
    | error e => rw [hall a (by simp) e hf]
    | ok y =>
      simp only
      obtain ⟨c, hc, hce⟩ := hex
      rcases List.mem_cons.1 hc with rfl | hc
      · rw [hf] at hce; simp at hce
      · rw [ih (fun a ha => hall a (by simp [ha])) ⟨c, hc, hce⟩]

/-- Mutual information with a constant variable is a ValueError, not zero. -/
theorem C71_mi_constant_error (eig : Eig) (X : Fin m → List ℝ) (hm : 2 ≤ m) (hn : 2 ≤ n) (hX : ∀ j, (X j).length = n)
    (k : Fin m) (hv : sampleVar (X k) = 0) (h : ℝ) (w : Int) (hw : 1 ≤ w) (b : Base) :
    kernelMI (List.ofFn (fun j => KVar.one (X j))) (some 0) false (gaussCfg eig h w) b = .error .valueError := by
  unfold kernelMI kernelMILocal
  rw [kmiInit_zero (gMIArgs hm hn hX)]
  simp only [bind, Except.bind]
  have e : (List.ofFn (fun j => KVar.one (X j))).map assure2d = (List.ofFn X).map col := by
    rw [List.map_ofFn, List.map_ofFn]; rfl
  rw [e]
  unfold kernelMICalc
  rw [stack_series (by omega) hX]
  simp only [bind, Except.bind]
  cases hj : kdeDensity (arrOf n X) none (gaussCfg eig h w) with
  | error e =>
    simp only
    rw [kde_gauss_error hw (by simp [arrOf]; omega) hj]
  | ok dj =>
    simp only
    rw [List.mapM_map, gMapM_error_mem (x := .valueError)]
    · intro xs hx e he
      obtain ⟨j, rfl⟩ := List.mem_ofFn.1 hx
      exact kde_gauss_error hw (by simp [col, assure2d, hX j]; omega) he
    · exact ⟨X k, List.mem_ofFn.2 ⟨k, rfl⟩, kde_col_error h w (Or.inl hv)⟩

example (eig : Eig) := C71_mi_constant_error eig ![[0, 1, 2], [4, 4, 4]] (by norm_num) (n := 3) (by norm_num) (by intro j; fin_cases j <;> rfl) 1
  (by norm_num [sampleVar, sampleCov, mean]) 1 1 le_rfl .e

theorem eig_le_trace {X : Fin m → List ℝ} (hn : 2 ≤ n) (hX : ∀ j, (X j).length = n) {v : Fin m → ℝ} (hv : v ⬝ᵥ v = 1) :
    v ⬝ᵥ (covOf X *ᵥ v) ≤ ∑ j, sampleVar (X j) := by
  rw [← covMat_atTime hX, covMat_quadratic]
  simp only [List.length_map, List.length_range]
  have hn' : (0 : ℝ) < n - 1 := by
    have : (2 : ℝ) ≤ n := by exact_mod_cast hn
    linarith
  have e : ∑ j, sampleVar (X j) = (((List.range n).map (atTime X)).map (fun p =>
      (p - meanVec ((List.range n).map (atTime X))) ⬝ᵥ (p - meanVec ((List.range n).map (atTime X))))).sum / ((n : ℝ) - 1) := by
    have e1 : ∀ j, sampleVar (X j) = covMat ((List.range n).map (atTime X)) j j := fun j => by
      rw [covMat_atTime hX]; rfl
    simp only [e1, covMat, List.length_map, List.length_range]
    rw [← Finset.sum_div]
    congr 1
    generalize (List.range n).map (atTime X) = l
    generalize meanVec l = μ
    induction l with
    | nil => simp
    | cons a l ih =>
      simp only [List.map_cons, List.sum_cons, Finset.sum_add_distrib, ih]
      simp [dotProduct]
  rw [e]
  refine div_le_div_of_nonneg_right ?_ hn'.le
  refine List.sum_le_sum fun p _ => ?_
  generalize p - meanVec ((List.range n).map (atTime X)) = q
  have := Finset.sum_mul_sq_le_sq_mul_sq Finset.univ v q
  have e2 : ∀ u : Fin m → ℝ, u ⬝ᵥ u = ∑ i, u i ^ 2 := fun u => by simp [dotProduct, pow_two]
  rw [e2] at hv ⊢
  rw [hv, one_mul] at this
  exact this

/-- The cut-off `1e-10` is absolute: two or more variables measured in units so small that their variances add up to at most
`1e-10` give a ValueError — although every single entropy exists and rescaling the variables would give a result. -/
theorem C71_small_units_error (eig : Eig) (he : EigOK eig) (X : Fin m → List ℝ) (hm : 2 ≤ m) (hn : 2 ≤ n) (hX : ∀ j, (X j).length = n)
    (hs : ∑ j, sampleVar (X j) ≤ 1 / 10 ^ 10) (h : ℝ) (w : Int) (b : Base) :
    kernelMI (List.ofFn (fun j => KVar.one (X j))) (some 0) false (gaussCfg eig h w) b = .error .valueError ∧
    kernelEntropy [.tup (List.ofFn (fun j => KVar.one (X j)))] (gaussCfg eig h w) b = .error .valueError := by
  have hfit : gaussFit eig (arrOf n X) h = .error .valueError := by
    have e3 : covMat (ptsOf (arrOf n X)) = covOf X := (congrArg covMat (ptsOf_arrOf n X)).trans (covMat_atTime hX)
    have hk : numLarge (eig m (covOf X)) = 0 := by
      unfold numLarge
      rw [List.countP_eq_zero]
      intro p hp
      have hsym : (covOf X).IsSymm := by rw [← covMat_atTime hX]; exact covMat_isSymm _
      obtain ⟨h1, h2⟩ := (he m (covOf X) hsym).2.1 p hp
      have h3 := eig_le_trace hn hX h1
      rw [h2, dotProduct_smul, h1, smul_eq_mul, mul_one] at h3
      simp only [decide_eq_true_eq, not_lt]
      linarith
    have hk' : numLarge (eig (arrOf n X).cols (covMat ((arrOf n X).rows.map (vecOf (arrOf n X).cols)))) = 0 := by
      have : covMat ((arrOf n X).rows.map (vecOf (arrOf n X).cols)) = covOf X := e3
      rw [this]; exact hk
    unfold gaussFit
    simp only
    rw [if_pos (show 1 < (arrOf n X).cols by show 1 < m; omega), if_pos (by rw [hk']; show 0 < m; omega)]
    rw [hk']
    unfold gaussKde
    rw [if_pos (by simp)]
    rfl
  have hkde : kdeDensity (arrOf n X) none (gaussCfg eig h w) = .error .valueError := by
    unfold kdeDensity gaussCfg gaussian
    simp only [PyArg.posNumber, Option.getD_none, ne_eq, not_true_eq_false, if_false]
    by_cases hh : 0 < h
    · rw [if_pos hh]
      simp only
      rw [hfit]
    · rw [if_neg hh]
  have e : (List.ofFn (fun j => KVar.one (X j))).map assure2d = (List.ofFn X).map col := by
    rw [List.map_ofFn, List.map_ofFn]; rfl
  constructor
  · unfold kernelMI kernelMILocal
    rw [kmiInit_zero (gMIArgs hm hn hX)]
    simp only [bind, Except.bind]
    rw [e]
    unfold kernelMICalc
    rw [stack_series (by omega) hX]
    simp only [bind, Except.bind]
    rw [hkde]
  · unfold kernelEntropy kernelEntropyLocal
    simp only
    split_ifs
    · rw [e, stack_series (by omega) hX]
      simp only [bind, Except.bind]
      unfold kernelSimple
      rw [hkde]
      rfl
    · rfl

/-- two series of seven-digit precision around zero -/
example (eig : Eig) (he : EigOK eig) := C71_small_units_error eig he ![[0, 1 / 10 ^ 6], [1 / 10 ^ 6, 0]] (by norm_num) (n := 2) (by norm_num)
  (by intro j; fin_cases j <;> rfl) (by norm_num [Fin.sum_univ_two, sampleVar, sampleCov, mean]) 1 1 .e

end Verif
