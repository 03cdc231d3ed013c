import Verif.Props.Gauss6
import Verif.Props.KernelCMI

/-! # C71: order of variables and samples; conditional mutual information with the Gaussian kernel -/

namespace Verif

open Matrix Spec

variable {m n : Nat}

/-- a subfamily of spread series is spread -/
theorem spread_sub {k : Nat} {X : Fin m → List ℝ} (hs : Spread X) (f : Fin k → Fin m) (hf : Function.Injective f) :
    Spread (fun j => X (f j)) := by
  intro v hv
  set u : Fin m → ℝ := fun i => ∑ j, if f j = i then v j else 0 with hu
  have hdot : ∀ g : Fin m → ℝ, u ⬝ᵥ g = v ⬝ᵥ (fun j => g (f j)) := by
    intro g
    simp only [dotProduct, hu, Finset.sum_mul]
    rw [Finset.sum_comm]
    refine Finset.sum_congr rfl fun j _ => ?_
    simp [ite_mul]
  have huf : ∀ j, u (f j) = v j := by
    intro j
    simp only [hu]
    rw [Finset.sum_eq_single j]
    · simp
    · intro b _ hb
      rw [if_neg fun h => hb (hf h)]
    · simp
  have h1 : u ⬝ᵥ u = 1 := by
    rw [hdot u]
    simp only [huf]
    exact hv
  have h2 := hs u h1
  rw [hdot] at h2
  have e : (fun j => (covOf X *ᵥ u) (f j)) = covOf (fun j => X (f j)) *ᵥ v := by
    funext j
    simp only [mulVec]
    rw [dotProduct_comm, hdot, dotProduct_comm]
    rfl
  rw [e] at h2
  exact h2

theorem normalPdf_perm (S : Matrix (Fin m) (Fin m) ℝ) (μ x : Fin m → ℝ) (σ : Equiv.Perm (Fin m)) :
    normalPdf (S.submatrix σ σ) (μ ∘ σ) (x ∘ σ) = normalPdf S μ x := by
  unfold normalPdf
  rw [Matrix.det_submatrix_equiv_self, Matrix.inv_submatrix_equiv]
  have e : x ∘ σ - μ ∘ σ = (x - μ) ∘ σ := rfl
  rw [e, Matrix.submatrix_mulVec_equiv]
  have e2 : ((x - μ) ∘ σ) ∘ σ.symm = x - μ := by
    funext i; simp
  rw [e2, comp_equiv_dotProduct_comp_equiv]

theorem gaussJoint_perm (X : Fin m → List ℝ) (σ : Equiv.Perm (Fin m)) (h : ℝ) (t : Nat) :
    gaussJoint n (fun j => X (σ j)) h (atTime (fun j => X (σ j)) t) = gaussJoint n X h (atTime X t) := by
  unfold gaussJoint
  congr 1
  refine List.map_congr_left fun s _ => ?_
  exact normalPdf_perm (h ^ 2 • covOf X) (atTime X s) (atTime X t) σ

/-- The order of the variables does not matter. -/
theorem C71_mi_order (eig : Eig) (he : EigOK eig) (X : Fin m → List ℝ) (hm : 2 ≤ m) (hn : 2 ≤ n) (hX : ∀ j, (X j).length = n)
    (hs : Spread X) (σ : Equiv.Perm (Fin m)) (h : ℝ) (hh : 0 < h) (w : Int) (hw : 1 ≤ w) (b : Base) (hb : b.Valid) :
    ∃ v, kernelMI (List.ofFn (fun j => KVar.one (X j))) (some 0) false (gaussCfg eig h w) b = .ok v ∧
      kernelMI (List.ofFn (fun j => KVar.one (X (σ j)))) (some 0) false (gaussCfg eig h w) b = .ok v := by
  refine ⟨_, C71_mi_value eig he X hm hn hX hs h hh w hw b hb, ?_⟩
  rw [C71_mi_value eig he (fun j => X (σ j)) hm hn (fun j => hX _) (spread_sub hs σ σ.injective) h hh w hw b hb]
  congr 2
  unfold gaussMI
  congr 1
  refine List.map_congr_left fun t _ => ?_
  rw [gaussJoint_perm]
  congr 2
  exact Equiv.prod_comp σ (fun j => gauss1 (X j) h ((X j).getD t 0))

example (eig : Eig) (he : EigOK eig) := C71_mi_order eig he gEx (by norm_num) (by norm_num) gEx_length gEx_spread (Equiv.swap 0 2) 1 one_pos 1 le_rfl
  (.num 2) (by norm_num [Base.Valid])

/-- Neither does the order of the samples of a single series. -/
theorem C71_entropy_sample_order (eig : Eig) (he : EigOK eig) (xs ys : List ℝ) (hp : xs.Perm ys) (hn : 2 ≤ xs.length)
    (hv : 0 < sampleVar xs) (h : ℝ) (hh : 0 < h) (w : Int) (hw : 1 ≤ w) (b : Base) (hb : b.Valid) :
    ∃ v, kernelEntropy [.arr (.one xs)] (gaussCfg eig h w) b = .ok v ∧
      kernelEntropy [.arr (.one ys)] (gaussCfg eig h w) b = .ok v := by
  have hmean : mean ys = mean xs := by unfold mean; rw [hp.sum_eq, hp.length_eq]
  have hvar : sampleVar ys = sampleVar xs := by
    unfold sampleVar sampleCov
    rw [hmean, hp.length_eq]
    congr 1
    have e : ∀ l : List ℝ, (l.zip l).map (fun p => (p.1 - mean xs) * (p.2 - mean xs)) = l.map (fun x => (x - mean xs) * (x - mean xs)) := by
      intro l
      induction l with
      | nil => rfl
      | cons a l ih => simp [ih]
    rw [e, e, (hp.map _).sum_eq]
  refine ⟨_, C71_entropy_value eig he xs hn hv h hh w hw b hb, ?_⟩
  rw [C71_entropy_value eig he ys (by rw [← hp.length_eq]; exact hn) (by rw [hvar]; exact hv) h hh w hw b hb]
  congr 2
  have hg : ∀ x, gauss1 ys h x = gauss1 xs h x := by
    intro x
    unfold gauss1 mean
    rw [hvar, (hp.map _).sum_eq]
    simp [hp.length_eq]
  simp only [hg]
  unfold mean
  rw [(hp.map _).sum_eq]
  simp [hp.length_eq]

example (eig : Eig) (he : EigOK eig) := C71_entropy_sample_order eig he [2, 5] [5, 2] (List.Perm.swap _ _ _) (by simp) gVar_pos' 1 one_pos 3
  (by norm_num) (.num 2) (by norm_num [Base.Valid])

/-- Nor that of several aligned series, as long as all are reordered together. -/
theorem C71_mi_sample_order (eig : Eig) (he : EigOK eig) (X : Fin m → List ℝ) (hm : 2 ≤ m) (hn : 2 ≤ n) (hX : ∀ j, (X j).length = n)
    (hs : Spread X) (π : List Nat) (hπ : π.Perm (List.range n)) (h : ℝ) (hh : 0 < h) (w : Int) (hw : 1 ≤ w) (b : Base) (hb : b.Valid) :
    ∃ v, kernelMI (List.ofFn (fun j => KVar.one (X j))) (some 0) false (gaussCfg eig h w) b = .ok v ∧
      kernelMI (List.ofFn (fun j => KVar.one (π.map (fun t => (X j).getD t 0)))) (some 0) false (gaussCfg eig h w) b = .ok v := by
  have hlen : π.length = n := by rw [hπ.length_eq, List.length_range]
  set Y : Fin m → List ℝ := fun j => π.map (fun t => (X j).getD t 0) with hY
  have hYl : ∀ j, (Y j).length = n := by simp [hY, hlen]
  have hYt : ∀ s < n, atTime Y s = atTime X (π.getD s 0) := by
    intro s hs
    funext j
    have : s < π.length := by omega
    simp [atTime, hY, List.getD_eq_getElem?_getD, this]
  have hpts : (List.range n).map (atTime Y) = π.map (atTime X) := by
    rw [list_eq_range π 0 hlen, List.map_map]
    refine List.map_congr_left fun s hs => ?_
    rw [hYt s (List.mem_range.1 hs)]
    rfl
  have hperm : ((List.range n).map (atTime Y)).Perm ((List.range n).map (atTime X)) := by
    rw [hpts]; exact hπ.map _
  have hcov : covOf Y = covOf X := by
    rw [← covMat_atTime hYl, ← covMat_atTime hX, covMat_perm hperm]
  have hsY : Spread Y := by
    intro v hv
    rw [hcov]; exact hs v hv
  have hg : ∀ x, gaussJoint n Y h x = gaussJoint n X h x := fun x => by
    rw [← gaussAt_atTime hYl, ← gaussAt_atTime hX, gaussAt_perm hperm]
  have hg1 : ∀ j x, gauss1 (Y j) h x = gauss1 (X j) h x := by
    intro j x
    have hp : (Y j).Perm (X j) := by
      have := hπ.map (fun t => (X j).getD t 0)
      rwa [range_getD (X j) (hX j)] at this
    have hvar : sampleVar (Y j) = sampleVar (X j) := congrFun (congrFun hcov j) j
    unfold gauss1 mean
    rw [hvar, (hp.map _).sum_eq]
    simp [hp.length_eq]
  refine ⟨_, C71_mi_value eig he X hm hn hX hs h hh w hw b hb, ?_⟩
  rw [C71_mi_value eig he Y hm hn hYl hsY h hh w hw b hb]
  congr 2
  unfold gaussMI
  simp only [hg, hg1]
  have e : (List.range n).map (fun t => Real.log (gaussJoint n X h (atTime Y t) / ∏ j, gauss1 (X j) h ((Y j).getD t 0))) =
      π.map (fun t => Real.log (gaussJoint n X h (atTime X t) / ∏ j, gauss1 (X j) h ((X j).getD t 0))) := by
    rw [list_eq_range π 0 hlen, List.map_map]
    refine List.map_congr_left fun s hs => ?_
    have hs' := List.mem_range.1 hs
    have h1 := hYt s hs'
    have h2 : ∀ j, (Y j).getD s 0 = (X j).getD (π.getD s 0) 0 := fun j => congrFun h1 j
    simp only [Function.comp]
    rw [h1]
    simp only [h2]
  rw [e]
  unfold mean
  rw [(hπ.map _).sum_eq]
  simp [hlen]

example (eig : Eig) (he : EigOK eig) := C71_mi_sample_order eig he gEx (by norm_num) (by norm_num) gEx_length gEx_spread [2, 0, 3, 1] (by decide)
  1 one_pos 1 le_rfl (.num 2) (by norm_num [Base.Valid])

/-! ### conditional mutual information -/

theorem sel_arrOf {k : Nat} (X : Fin m → List ℝ) (f : Fin k → Fin m) :
    (arrOf n X).sel (List.ofFn (fun i => (f i : Nat))) = arrOf n (fun i => X (f i)) := by
  unfold Arr.sel arrOf
  simp only [List.length_ofFn, List.map_map, Arr.mk.injEq, true_and]
  refine List.map_congr_left fun t _ => ?_
  simp only [Function.comp, List.map_ofFn]
  congr 1
  funext i
  simp [atTime]

theorem gCMI_arrays (x y z : List ℝ) :
    (arrOf n ![x, y, z]).sel [0, 2] = arrOf n ![x, z] ∧ (arrOf n ![x, y, z]).sel [1, 2] = arrOf n ![y, z] ∧
      (arrOf n ![x, y, z]).sel [2] = arrOf n (fun _ : Fin 1 => z) := by
  have e1 := sel_arrOf (n := n) ![x, y, z] (![0, 2] : Fin 2 → Fin 3)
  have e2 := sel_arrOf (n := n) ![x, y, z] (![1, 2] : Fin 2 → Fin 3)
  have e3 := sel_arrOf (n := n) ![x, y, z] (![2] : Fin 1 → Fin 3)
  have f1 : (fun i => ![x, y, z] ((![0, 2] : Fin 2 → Fin 3) i)) = ![x, z] := by
    funext i; fin_cases i <;> rfl
  have f2 : (fun i => ![x, y, z] ((![1, 2] : Fin 2 → Fin 3) i)) = ![y, z] := by
    funext i; fin_cases i <;> rfl
  have f3 : (fun i => ![x, y, z] ((![2] : Fin 1 → Fin 3) i)) = fun _ => z := by
    funext i; fin_cases i; rfl
  rw [f1] at e1
  rw [f2] at e2
  rw [f3] at e3
  exact ⟨e1, e2, e3⟩

theorem spread_three {x y z : List ℝ} (hs : Spread ![x, y, z]) : Spread ![x, z] ∧ Spread ![y, z] ∧ Spread (fun _ : Fin 1 => z) := by
  refine ⟨?_, ?_, ?_⟩
  · have := spread_sub hs (![0, 2] : Fin 2 → Fin 3) (by decide)
    convert this using 1
    funext i; fin_cases i <;> rfl
  · have := spread_sub hs (![1, 2] : Fin 2 → Fin 3) (by decide)
    convert this using 1
    funext i; fin_cases i <;> rfl
  · have := spread_sub hs (![2] : Fin 1 → Fin 3) (by decide)
    convert this using 1
    funext i; fin_cases i; rfl

theorem len_two {x z : List ℝ} (hx : x.length = n) (hz : z.length = n) : ∀ j, (![x, z] j).length = n := by
  intro j; fin_cases j <;> simp [hx, hz]

theorem len_three {x y z : List ℝ} (hx : x.length = n) (hy : y.length = n) (hz : z.length = n) : ∀ j, (![x, y, z] j).length = n := by
  intro j; fin_cases j <;> simp [hx, hy, hz]

/-- Conditional mutual information with the Gaussian kernel: mean log-ratio of the four density estimates. -/
theorem C71_cmi_value (eig : Eig) (he : EigOK eig) (x y z : List ℝ) (hn : 2 ≤ n) (hx : x.length = n) (hy : y.length = n)
    (hz : z.length = n) (hs : Spread ![x, y, z]) (h : ℝ) (hh : 0 < h) (w : Int) (hw : 1 ≤ w) (b : Base) (hb : b.Valid) :
    kernelCMI [.one x, .one y] (some (.one z)) (some 0) false (gaussCfg eig h w) b = .ok (gaussCMI n x y z h / b.ln) := by
  obtain ⟨s1, s2, s3⟩ := spread_three hs
  have F := fit_spread (by norm_num) hn (len_three hx hy hz) hs
  have F1 := fit_spread (by norm_num) hn (len_two hx hz) s1
  have F2 := fit_spread (by norm_num) hn (len_two hy hz) s2
  have F3 := fit_spread le_rfl hn (fun _ => hz) s3
  obtain ⟨a1, a2, a3⟩ := gCMI_arrays (n := n) x y z
  have hst : stackArrs [col x, col y, col z] = .ok (arrOf n ![x, y, z]) := by
    have := stack_series (n := n) (X := ![x, y, z]) (by norm_num) (len_three hx hy hz)
    simpa [List.ofFn_succ] using this
  unfold kernelCMI kernelCMILocal
  have hinit := kcmiInit_one (L := [x, y]) (z := z) (n := n) (by simp) (by simp [hx, hy]) hz (o := some 0) (.inl rfl)
  simp only [List.map_cons, List.map_nil] at hinit
  rw [hinit]
  simp only [bind, Except.bind, List.map_cons, List.map_nil]
  unfold kernelCMICalc
  simp only [List.cons_append, List.nil_append]
  rw [show assure2d (.one x) = col x from rfl, show assure2d (.one y) = col y from rfl, show assure2d (.one z) = col z from rfl, hst]
  simp only [bind, Except.bind]
  rw [kde_arrOf he F hh hw]
  simp only
  have hcols : (arrOf n ![x, y, z]).cols - 1 = 2 := rfl
  rw [hcols]
  have hds : (List.range [col x, col y].length).mapM (fun i => kdeDensity ((arrOf n ![x, y, z]).sel [i, 2]) none (gaussCfg eig h w)) =
      .ok [(List.range n).map (fun t => gaussJoint n ![x, z] h (atTime ![x, z] t)),
        (List.range n).map (fun t => gaussJoint n ![y, z] h (atTime ![y, z] t))] := by
    have : List.range [col x, col y].length = [0, 1] := rfl
    rw [this]
    simp only [List.mapM_cons, List.mapM_nil, a1, a2, kde_arrOf he F1 hh hw, kde_arrOf he F2 hh hw, bind, Except.bind, pure,
      Except.pure]
  rw [hds, a3, kde_arrOf he F3 hh hw]
  simp only [List.length_map, List.length_range]
  rw [mapM_ok (g := fun t => Real.log ((gaussJoint n ![x, y, z] h (atTime ![x, y, z] t) * gauss1 z h (z.getD t 0)) /
      (gaussJoint n ![x, z] h (atTime ![x, z] t) * gaussJoint n ![y, z] h (atTime ![y, z] t))) / b.ln)]
  · simp only
    rw [gMean hn]
    rfl
  · intro t ht
    have ht' := List.mem_range.1 ht
    have e1 : ∀ F : Nat → ℝ, ((List.range n).map F).getD t 0 = F t := by
      intro F; simp [List.getD_eq_getElem?_getD, ht']
    simp only [List.map_cons, List.map_nil, e1, List.prod_cons, List.prod_nil, mul_one]
    rw [gaussJoint_one hz]
    have h0 : 0 < gauss1 z h (z.getD t 0) := by
      have := gaussJoint_pos F3 hh (atTime (fun _ : Fin 1 => z) t)
      rwa [gaussJoint_one hz] at this
    exact logBase_ok hb (div_pos (mul_pos (gaussJoint_pos F hh _) h0) (mul_pos (gaussJoint_pos F1 hh _) (gaussJoint_pos F2 hh _)))

example (eig : Eig) (he : EigOK eig) := C71_cmi_value eig he [0, 1, 0, 1] [0, 0, 1, 1] [0, 1, 1, 0] (n := 4) (by norm_num) rfl rfl rfl gEx_spread
  1 one_pos 1 le_rfl (.num 2) (by norm_num [Base.Valid])

/-- It is symmetric in the two variables. -/
theorem C71_cmi_symmetric (eig : Eig) (he : EigOK eig) (x y z : List ℝ) (hn : 2 ≤ n) (hx : x.length = n) (hy : y.length = n)
    (hz : z.length = n) (hs : Spread ![x, y, z]) (h : ℝ) (hh : 0 < h) (w : Int) (hw : 1 ≤ w) (b : Base) (hb : b.Valid) :
    ∃ v, kernelCMI [.one x, .one y] (some (.one z)) (some 0) false (gaussCfg eig h w) b = .ok v ∧
      kernelCMI [.one y, .one x] (some (.one z)) (some 0) false (gaussCfg eig h w) b = .ok v := by
  refine ⟨_, C71_cmi_value eig he x y z hn hx hy hz hs h hh w hw b hb, ?_⟩
  have ef : ![y, x, z] = fun j => ![x, y, z] (Equiv.swap (0 : Fin 3) 1 j) := by
    funext j; fin_cases j <;> rfl
  have hs' : Spread ![y, x, z] := by rw [ef]; exact spread_sub hs _ (Equiv.injective _)
  rw [C71_cmi_value eig he y x z hn hy hx hz hs' h hh w hw b hb]
  congr 2
  unfold gaussCMI
  congr 1
  refine List.map_congr_left fun t _ => ?_
  rw [mul_comm (gaussJoint n ![y, z] h _)]
  have := gaussJoint_perm (n := n) ![x, y, z] (Equiv.swap 0 1) h t
  rw [← ef] at this
  rw [this]

example (eig : Eig) (he : EigOK eig) := C71_cmi_symmetric eig he [0, 1, 0, 1] [0, 0, 1, 1] [0, 1, 1, 0] (n := 4) (by norm_num) rfl rfl rfl gEx_spread
  1 one_pos 1 le_rfl (.num 2) (by norm_num [Base.Valid])

/-- and does not depend on the units of the three variables. -/
theorem C71_cmi_affine (eig : Eig) (he : EigOK eig) (x y z : List ℝ) (hn : 2 ≤ n) (hx : x.length = n) (hy : y.length = n)
    (hz : z.length = n) (a c : Fin 3 → ℝ) (ha : ∀ j, a j ≠ 0) (hs : Spread ![x, y, z])
    (hs' : Spread ![x.map (fun u => a 0 * u + c 0), y.map (fun u => a 1 * u + c 1), z.map (fun u => a 2 * u + c 2)])
    (h : ℝ) (hh : 0 < h) (w : Int) (hw : 1 ≤ w) (b : Base) (hb : b.Valid) :
    ∃ v, kernelCMI [.one x, .one y] (some (.one z)) (some 0) false (gaussCfg eig h w) b = .ok v ∧
      kernelCMI [.one (x.map (fun u => a 0 * u + c 0)), .one (y.map (fun u => a 1 * u + c 1))]
        (some (.one (z.map (fun u => a 2 * u + c 2)))) (some 0) false (gaussCfg eig h w) b = .ok v := by
  refine ⟨_, C71_cmi_value eig he x y z hn hx hy hz hs h hh w hw b hb, ?_⟩
  rw [C71_cmi_value eig he _ _ _ hn (by simpa using hx) (by simpa using hy) (by simpa using hz) hs' h hh w hw b hb]
  congr 2
  unfold gaussCMI
  congr 1
  refine List.map_congr_left fun t ht => ?_
  have ht' := List.mem_range.1 ht
  have key : ∀ {k : Nat} (X : Fin k → List ℝ) (_ : ∀ j, (X j).length = n) (α γ : Fin k → ℝ) (_ : ∀ j, α j ≠ 0),
      gaussJoint n (fun j => scaleSeries (α j) (γ j) (X j)) h (atTime (fun j => scaleSeries (α j) (γ j) (X j)) t) =
        gaussJoint n X h (atTime X t) / ∏ j, |α j| := by
    intro k X hX α γ hα
    have hd : (Matrix.diagonal α).det ≠ 0 := by
      rw [Matrix.det_diagonal]
      exact Finset.prod_ne_zero_iff.2 fun j _ => hα j
    have e1 := gaussJoint_mix hn hX hd γ h ht'
    rw [← scale_eq_mix α γ hX, Matrix.det_diagonal, Finset.abs_prod] at e1
    exact e1
  have k3 := key ![x, y, z] (len_three hx hy hz) a c ha
  have k1 := key ![x, z] (len_two hx hz) ![a 0, a 2] ![c 0, c 2] (by intro j; fin_cases j <;> simp [ha])
  have k2 := key ![y, z] (len_two hy hz) ![a 1, a 2] ![c 1, c 2] (by intro j; fin_cases j <;> simp [ha])
  have f3 : (fun j => scaleSeries (a j) (c j) (![x, y, z] j)) =
      ![x.map (fun u => a 0 * u + c 0), y.map (fun u => a 1 * u + c 1), z.map (fun u => a 2 * u + c 2)] := by
    funext j; fin_cases j <;> rfl
  have f1 : (fun j => scaleSeries (![a 0, a 2] j) (![c 0, c 2] j) (![x, z] j)) =
      ![x.map (fun u => a 0 * u + c 0), z.map (fun u => a 2 * u + c 2)] := by
    funext j; fin_cases j <;> rfl
  have f2 : (fun j => scaleSeries (![a 1, a 2] j) (![c 1, c 2] j) (![y, z] j)) =
      ![y.map (fun u => a 1 * u + c 1), z.map (fun u => a 2 * u + c 2)] := by
    funext j; fin_cases j <;> rfl
  rw [f3, Fin.prod_univ_three] at k3
  rw [f1, Fin.prod_univ_two] at k1
  rw [f2, Fin.prod_univ_two] at k2
  have hg : gauss1 (z.map (fun u => a 2 * u + c 2)) h ((z.map (fun u => a 2 * u + c 2)).getD t 0) = gauss1 z h (z.getD t 0) / |a 2| := by
    rw [← gauss1_scale (ha 2) (c 2) (by rw [hz]; exact hn)]
    have : t < z.length := by omega
    simp [scaleSeries, List.getD_eq_getElem?_getD, this]
  rw [k3, k1, k2, hg]
  have h0 := abs_ne_zero.2 (ha 0)
  have h1 := abs_ne_zero.2 (ha 1)
  have h2 := abs_ne_zero.2 (ha 2)
  simp only [Matrix.cons_val_zero, Matrix.cons_val_one]
  rw [div_mul_div_comm, div_mul_div_comm, show |a 0| * |a 1| * |a 2| * |a 2| = |a 0| * |a 2| * (|a 1| * |a 2|) by ring,
    div_div_div_cancel_right₀ (by positivity)]

example (eig : Eig) (he : EigOK eig) := C71_cmi_affine eig he [0, 1, 0, 1] [0, 0, 1, 1] [0, 1, 1, 0] (n := 4) (by norm_num) rfl rfl rfl
  ![2, -1, 3] ![5, 0, 7] (by intro j; fin_cases j <;> norm_num) gEx_spread
  (by
    have h := gSpread_affine (r := 1 / 3) (by norm_num) gEx_cov gEx_ne ![2, -1, 3] ![5, 0, 7] (by intro j; fin_cases j <;> norm_num)
    convert h using 1
    funext j
    fin_cases j <;> rfl)
  1 one_pos 1 le_rfl (.num 2) (by norm_num [Base.Valid])

end Verif
