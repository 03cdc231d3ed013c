import Verif.Props.Gauss3
import Verif.Props.KernelDiv3

/-! # C71: cross-entropy and divergences with the Gaussian kernel -/

namespace Verif

open Matrix Spec

theorem kde_gauss_at {eig : Eig} (he : EigOK eig) {a p : Arr} (ha : GReg a) (hc : p.cols = a.cols) (hp : 2 ≤ p.rows.length) {h : ℝ}
    (hh : 0 < h) {w : Int} (hw : 1 ≤ w) :
    kdeDensity a (some p) (gaussCfg eig h w) = .ok (p.rows.map (fun x => gaussAt (ptsOf a) h (vecOf a.cols x))) := by
  unfold kdeDensity gaussCfg gaussian
  simp only [PyArg.posNumber, if_pos hh, Option.getD_some, ne_eq, hc, not_true_eq_false, if_false]
  rw [gaussFit_full he ha]
  simp only
  exact C48_parallel_eq_sequential _ _ _ _ hw (by omega)

theorem kde_col_at {eig : Eig} (he : EigOK eig) {ps qs : List ℝ} (hp : 2 ≤ ps.length) (hq : 2 ≤ qs.length) (hv : 0 < sampleVar qs)
    {h : ℝ} (hh : 0 < h) {w : Int} (hw : 1 ≤ w) :
    kdeDensity (col qs) (some (col ps)) (gaussCfg eig h w) = .ok (ps.map (gauss1 qs h)) := by
  have F := fit_one (n := qs.length) rfl hq hv
  have e : col qs = arrOf qs.length (fun _ : Fin 1 => qs) := col_arrOf rfl
  have hr : GReg (col qs) := by rw [e]; exact F.reg
  rw [kde_gauss_at (p := col ps) he hr rfl (by simpa [col, assure2d] using hp) hh hw]
  congr 1
  show ((ps.map (fun x => [x])).map _) = _
  rw [List.map_map]
  refine List.map_congr_left fun x _ => ?_
  simp only [Function.comp]
  have : gaussAt (ptsOf (col qs)) h (vecOf (col qs).cols [x]) = gaussJoint qs.length (fun _ : Fin 1 => qs) h (fun _ => x) := by
    rw [← gaussAt_atTime F.len, ← ptsOf_arrOf, e]
    congr 1
    funext j
    fin_cases j
    rfl
  rw [this, gaussJoint_one rfl]

/-- Cross-entropy: the density estimated from the second sample, at the points of the first. -/
theorem C71_cross_value (eig : Eig) (he : EigOK eig) (ps qs : List ℝ) (hp : 2 ≤ ps.length) (hq : 2 ≤ qs.length) (hv : 0 < sampleVar qs)
    (h : ℝ) (hh : 0 < h) (w : Int) (hw : 1 ≤ w) (b : Base) (hb : b.Valid) :
    kernelEntropy [.arr (.one ps), .arr (.one qs)] (gaussCfg eig h w) b =
      .ok (mean (ps.map (fun x => - Real.log (gauss1 qs h x))) / b.ln) := by
  classical
  simp only [kernelEntropy, kernelCross]
  rw [show assure2d (.one qs) = col qs from rfl, show assure2d (.one ps) = col ps from rfl, kde_col_at he hp hq hv hh hw]
  simp only [bind, Except.bind]
  have hf : (ps.map (gauss1 qs h)).filter (fun d => decide (0 < d)) = ps.map (gauss1 qs h) := by
    refine List.filter_eq_self.2 fun d hd => ?_
    obtain ⟨x, _, rfl⟩ := List.mem_map.1 hd
    exact decide_eq_true (gauss1_pos hq hv hh x)
  have hf' : (ps.map (gauss1 qs h)).filter (fun d => @decide (0 < d) (Classical.propDecidable _)) = ps.map (gauss1 qs h) := by
    convert hf
  rw [hf', mapM_ok (g := fun d => Real.log d / b.ln)]
  · simp only [List.length_map, pure, Except.pure]
    rw [if_neg (by omega), if_neg (by omega)]
    congr 1
    rw [List.map_map]
    have e2 : ((fun d => Real.log d / b.ln) ∘ gauss1 qs h) = fun x => Real.log (gauss1 qs h x) / b.ln := rfl
    unfold mean
    rw [e2, sum_map_div_const, sum_map_neg' _ (fun x => Real.log (gauss1 qs h x)), List.length_map]
    ring
  · intro d hd
    obtain ⟨x, _, rfl⟩ := List.mem_map.1 hd
    exact logBase_ok hb (gauss1_pos hq hv hh x)

example (eig : Eig) (he : EigOK eig) := C71_cross_value eig he [2, 5] [0, 1, 0, 1] (by simp) (by simp) gVar_pos 1 one_pos 1 le_rfl (.num 2)
  (by norm_num [Base.Valid])

/-- Kullback–Leibler divergence: mean log-ratio of the two density estimates over the first sample. -/
theorem C71_kld_value (eig : Eig) (he : EigOK eig) (ps qs : List ℝ) (hp : 2 ≤ ps.length) (hq : 2 ≤ qs.length) (hvp : 0 < sampleVar ps)
    (hvq : 0 < sampleVar qs) (h : ℝ) (hh : 0 < h) (w : Int) (hw : 1 ≤ w) (b : Base) (hb : b.Valid) :
    kernelKld (.arr (.one ps)) (.arr (.one qs)) (gaussCfg eig h w) b =
      .ok (mean (ps.map (fun x => Real.log (gauss1 ps h x / gauss1 qs h x))) / b.ln) := by
  unfold kernelKld
  rw [C71_cross_value eig he ps qs hp hq hvq h hh w hw b hb, C71_entropy_value eig he ps hp hvp h hh w hw b hb]
  simp only [bind, Except.bind, pure, Except.pure]
  congr 1
  rw [← sub_div, ← mean_sub]
  congr 2
  refine List.map_congr_left fun x _ => ?_
  rw [Real.log_div (gauss1_pos hp hvp hh x).ne' (gauss1_pos hq hvq hh x).ne']
  ring

example (eig : Eig) (he : EigOK eig) := C71_kld_value eig he [2, 5] [0, 1, 0, 1] (by simp) (by simp) gVar_pos' gVar_pos 1 one_pos 1 le_rfl (.num 2)
  (by norm_num [Base.Valid])

/-- A sample is at divergence 0 from itself. -/
theorem C71_kld_self (eig : Eig) (he : EigOK eig) (ps : List ℝ) (hp : 2 ≤ ps.length) (hvp : 0 < sampleVar ps)
    (h : ℝ) (hh : 0 < h) (w : Int) (hw : 1 ≤ w) (b : Base) (hb : b.Valid) :
    kernelKld (.arr (.one ps)) (.arr (.one ps)) (gaussCfg eig h w) b = .ok 0 := by
  rw [C71_kld_value eig he ps ps hp hp hvp hvp h hh w hw b hb]
  have : ps.map (fun x => Real.log (gauss1 ps h x / gauss1 ps h x)) = ps.map (fun _ => (0 : ℝ)) := by
    refine List.map_congr_left fun x _ => ?_
    rw [div_self (gauss1_pos hp hvp hh x).ne', Real.log_one]
  rw [this]
  simp [mean]

example (eig : Eig) (he : EigOK eig) := C71_kld_self eig he [2, 5] (by simp) gVar_pos' 1 one_pos 1 le_rfl (.num 2) (by norm_num [Base.Valid])

/-- The divergence does not depend on the units. -/
theorem C71_kld_affine (eig : Eig) (he : EigOK eig) (ps qs : List ℝ) (hp : 2 ≤ ps.length) (hq : 2 ≤ qs.length) (hvp : 0 < sampleVar ps)
    (hvq : 0 < sampleVar qs) (a c : ℝ) (ha : a ≠ 0) (h : ℝ) (hh : 0 < h) (w : Int) (hw : 1 ≤ w) (b : Base) (hb : b.Valid) :
    ∃ v, kernelKld (.arr (.one ps)) (.arr (.one qs)) (gaussCfg eig h w) b = .ok v ∧
      kernelKld (.arr (.one (ps.map (fun x => a * x + c)))) (.arr (.one (qs.map (fun x => a * x + c)))) (gaussCfg eig h w) b = .ok v := by
  refine ⟨_, C71_kld_value eig he ps qs hp hq hvp hvq h hh w hw b hb, ?_⟩
  have hv : ∀ {xs : List ℝ}, 2 ≤ xs.length → 0 < sampleVar xs → 0 < sampleVar (xs.map (fun x => a * x + c)) := by
    intro xs hx hv
    rw [show xs.map (fun x => a * x + c) = scaleSeries a c xs from rfl, sampleVar_scale a c hx]
    positivity
  rw [C71_kld_value eig he _ _ (by simpa using hp) (by simpa using hq) (hv hp hvp) (hv hq hvq) h hh w hw b hb, List.map_map]
  congr 3
  refine List.map_congr_left fun x _ => ?_
  simp only [Function.comp]
  have e1 := gauss1_scale ha c hp h x
  have e2 := gauss1_scale ha c hq h x
  unfold scaleSeries at e1 e2
  rw [e1, e2, div_div_div_cancel_right₀ (abs_ne_zero.2 ha)]

example (eig : Eig) (he : EigOK eig) := C71_kld_affine eig he [2, 5] [0, 1, 0, 1] (by simp) (by simp) gVar_pos' gVar_pos (-3) 1 (by norm_num) 1
  one_pos 1 le_rfl (.num 2) (by norm_num [Base.Valid])

/-- Jensen–Shannon value: entropy of the pooled sample minus the average of the entropies. -/
theorem C71_jsd_value (eig : Eig) (he : EigOK eig) (xss : List (List ℝ)) (hne : xss ≠ []) (h2 : ∀ xs ∈ xss, 2 ≤ xs.length)
    (hv : ∀ xs ∈ xss, 0 < sampleVar xs) (hvm : 0 < sampleVar xss.flatten) (h : ℝ) (hh : 0 < h) (w : Int) (hw : 1 ≤ w) (b : Base) (hb : b.Valid) :
    kernelJsd (xss.map KVar.one) (gaussCfg eig h w) b =
      .ok ((mean (xss.flatten.map (fun x => - Real.log (gauss1 xss.flatten h x))) -
        mean (xss.map (fun xs => mean (xs.map (fun x => - Real.log (gauss1 xs h x)))))) / b.ln) := by
  have hl : 2 ≤ xss.flatten.length := by
    obtain ⟨u, hu⟩ := List.exists_mem_of_ne_nil _ hne
    rw [List.length_flatten]
    exact (h2 u hu).trans (List.le_sum_of_mem (List.mem_map.2 ⟨u, hu, rfl⟩))
  unfold kernelJsd
  rw [concatVars_one xss hne]
  simp only [bind, Except.bind, C71_entropy_value eig he xss.flatten hl hvm h hh w hw b hb]
  rw [List.mapM_map, mapM_ok (f := (fun v => kernelEntropy [.arr v] (gaussCfg eig h w) b) ∘ KVar.one)
    (g := fun xs => mean (xs.map (fun x => - Real.log (gauss1 xs h x))) / b.ln) xss (fun xs hx => by
      simp only [Function.comp]
      rw [C71_entropy_value eig he xs (h2 xs hx) (hv xs hx) h hh w hw b hb])]
  simp only [pure, Except.pure]
  rw [sum_map_div_const]
  congr 1
  conv_rhs => rw [sub_div]
  congr 1
  unfold mean
  simp only [List.length_map]
  ring

example (eig : Eig) (he : EigOK eig) := C71_jsd_value eig he [[2, 5], [0, 1, 0, 1]] (by simp) (by simp) (by simpa using ⟨gVar_pos', gVar_pos⟩)
  (by norm_num [sampleVar, sampleCov, mean]) 1 one_pos 1 le_rfl (.num 2) (by norm_num [Base.Valid])

theorem sampleVar_sq (xs : List ℝ) : sampleVar xs = (xs.map (fun x => (x - mean xs) ^ 2)).sum / ((xs.length : ℝ) - 1) := by
  unfold sampleVar sampleCov
  congr 2
  generalize mean xs = m
  induction xs with
  | nil => rfl
  | cons a l ih => simp [ih, pow_two]

theorem sum_sq_shift (xs : List ℝ) (m D : ℝ) :
    (xs.length : ℝ) * (D ^ 2 / 2) ≤ (xs.map (fun x => (x - m) ^ 2)).sum + ((xs.map (fun x => x + D)).map (fun x => (x - m) ^ 2)).sum := by
  induction xs with
  | nil => simp
  | cons a l ih =>
    simp only [List.map_cons, List.sum_cons, List.length_cons]
    push_cast
    nlinarith [sq_nonneg (2 * (a - m) + D)]

/-- (finding) The Jensen–Shannon value is not bounded by `log 2`: moving the second of two equal samples away makes it as large
as one likes, because the bandwidth of the pooled sample grows with the distance. -/
theorem C71_jsd_unbounded (eig : Eig) (he : EigOK eig) (xs : List ℝ) (h2 : 2 ≤ xs.length) (hv : 0 < sampleVar xs)
    (h : ℝ) (hh : 0 < h) (w : Int) (hw : 1 ≤ w) (b : Base) (hb : b.Std) (M : ℝ) :
    ∃ D v, kernelJsd [.one xs, .one (xs.map (fun x => x + D))] (gaussCfg eig h w) b = .ok v ∧ M < v := by
  set H := mean (xs.map (fun x => - Real.log (gauss1 xs h x))) with hH
  have hln := hb.ln_pos
  set T := M * b.ln + H + 1 with hT
  set D := Real.sqrt (4 * Real.exp (2 * T) / (2 * Real.pi * h ^ 2)) with hD
  have hDp : 0 < 4 * Real.exp (2 * T) / (2 * Real.pi * h ^ 2) := by positivity
  have hD2 : D ^ 2 = 4 * Real.exp (2 * T) / (2 * Real.pi * h ^ 2) := Real.sq_sqrt hDp.le
  have hD0 : 0 < D ^ 2 := by rw [hD2]; exact hDp
  set ys := xs.map (fun x => x + D) with hys
  have eys : ys = xs.map (fun x => 1 * x + D) := by simp [hys]
  have hyl : ys.length = xs.length := by simp [hys]
  have hvy : sampleVar ys = sampleVar xs := by
    rw [eys, show xs.map (fun x => 1 * x + D) = scaleSeries 1 D xs from rfl, sampleVar_scale 1 D h2]; ring
  have hn : (2 : ℝ) ≤ xs.length := by exact_mod_cast h2
  have hpool : D ^ 2 / 4 ≤ sampleVar [xs, ys].flatten := by
    have ef : [xs, ys].flatten = xs ++ ys := by simp
    rw [ef, sampleVar_sq]
    have := sum_sq_shift xs (mean (xs ++ ys)) D
    rw [List.map_append, List.sum_append, le_div_iff₀ (by rw [List.length_append, hyl]; push_cast; linarith)]
    rw [List.length_append, hyl]
    push_cast
    nlinarith
  have hpos : 0 < sampleVar [xs, ys].flatten := by linarith
  have key := C71_jsd_value eig he [xs, ys] (by simp) (by simp [hyl, h2]) (by simp [hvy, hv]) hpos h hh w hw b hb.valid
  refine ⟨D, _, key, ?_⟩
  have hfl : 2 ≤ [xs, ys].flatten.length := by simp; omega
  obtain ⟨e, he1, he2, _⟩ := C71_entropy_bounds eig he [xs, ys].flatten hfl hpos h hh w hw b hb.valid
  rw [C71_entropy_value eig he _ hfl hpos h hh w hw b hb.valid] at he1
  cases he1
  rw [div_mul_cancel₀ _ hb.valid.ln_ne] at he2
  have hEy : mean (ys.map (fun x => - Real.log (gauss1 ys h x))) = H := by
    rw [hH, eys, List.map_map]
    congr 1
    refine List.map_congr_left fun x _ => ?_
    have := gauss1_scale one_ne_zero D h2 h x
    unfold scaleSeries at this
    simp only [Function.comp]
    rw [this]
    simp
  have hmean : mean ([xs, ys].map (fun xs => mean (xs.map (fun x => - Real.log (gauss1 xs h x))))) = H := by
    simp only [List.map_cons, List.map_nil]
    rw [hEy, ← hH]
    simp [mean]
  have hlow : T ≤ Real.log (2 * Real.pi * h ^ 2 * sampleVar [xs, ys].flatten) / 2 := by
    rw [le_div_iff₀ (by norm_num), Real.le_log_iff_exp_le (by positivity)]
    have : Real.exp (T * 2) = 2 * Real.pi * h ^ 2 * (D ^ 2 / 4) := by
      rw [hD2, mul_comm T 2]; field_simp
    rw [this]
    exact mul_le_mul_of_nonneg_left hpool (by positivity)
  have hfin : T - H ≤ mean ([xs, ys].flatten.map (fun x => - Real.log (gauss1 [xs, ys].flatten h x))) -
        mean ([xs, ys].map (fun xs => mean (xs.map (fun x => - Real.log (gauss1 xs h x))))) := by
    rw [hmean]; linarith
  rw [lt_div_iff₀ hln]
  have : M * b.ln < T - H := by rw [hT]; linarith
  linarith

example : ∃ (xs : List ℝ), 2 ≤ xs.length ∧ 0 < sampleVar xs :=
  ⟨[0, 1], by norm_num, by rw [sampleVar_sq]; norm_num [mean]⟩

end Verif
