import Verif.Props.Gauss3

/-! # C71: limits of large and small bandwidth -/

namespace Verif

open Matrix Spec Topology

variable {m n : Nat}

theorem tendsto_mean {F : Filter ℝ} {f : Nat → ℝ → ℝ} {L : Nat → ℝ} (H : ∀ t < n, Filter.Tendsto (f t) F (𝓝 (L t))) :
    Filter.Tendsto (fun h => mean ((List.range n).map (fun t => f t h))) F (𝓝 (mean ((List.range n).map L))) := by
  unfold mean
  simp only [List.length_map, List.length_range]
  refine Filter.Tendsto.div_const ?_ _
  have : ∀ l : List Nat, (∀ t ∈ l, t < n) →
      Filter.Tendsto (fun h => (l.map (fun t => f t h)).sum) F (𝓝 (l.map L).sum) := by
    intro l
    induction l with
    | nil => intro _; simpa using tendsto_const_nhds
    | cons a l ih =>
      intro hl
      simp only [List.map_cons, List.sum_cons]
      exact (H a (hl a (by simp))).add (ih fun t ht => hl t (by simp [ht]))
  exact this _ fun t ht => List.mem_range.1 ht

theorem gMean_const (hn : 2 ≤ n) (c : ℝ) : mean ((List.range n).map (fun _ => c)) = c := by
  have hn' : (n : ℝ) ≠ 0 := by
    have : 0 < n := by omega
    positivity
  unfold mean
  rw [List.map_const', List.sum_replicate, List.length_replicate, List.length_range, nsmul_eq_mul]
  field_simp

/-- weights tend to one for large bandwidths -/
theorem weight_atTop (hn : 2 ≤ n) (X : Fin m → List ℝ) (x : Fin m → ℝ) :
    Filter.Tendsto (fun h => gWeight n X h x) Filter.atTop (𝓝 1) := by
  have := tendsto_mean (n := n) (F := Filter.atTop)
    (f := fun t h => Real.exp (-(mahal (covOf X) (x - atTime X t)) / (2 * h ^ 2))) (L := fun _ => 1) (fun t _ => by
      rw [← Real.exp_zero]
      refine (Real.continuous_exp.tendsto 0).comp ?_
      refine Filter.Tendsto.const_div_atTop ?_ _
      exact Filter.Tendsto.const_mul_atTop (by norm_num) (Filter.tendsto_pow_atTop (by norm_num)))
  rw [gMean_const hn] at this
  exact this

/-- weights tend to `1/n` for small bandwidths if the sample at `t` occurs only once -/
theorem weight_zero {X : Fin m → List ℝ} (F : Fit n X) {t : Nat} (ht : t < n) (hd : ∀ s < n, s ≠ t → atTime X s ≠ atTime X t) :
    Filter.Tendsto (fun h => gWeight n X h (atTime X t)) (𝓝[>] 0) (𝓝 (1 / (n : ℝ))) := by
  have key := tendsto_mean (n := n) (F := 𝓝[>] (0 : ℝ))
    (f := fun s h => Real.exp (-(mahal (covOf X) (atTime X t - atTime X s)) / (2 * h ^ 2)))
    (L := fun s => if s = t then 1 else 0) (fun s hs => by
      by_cases hst : s = t
      · subst hst
        simp [mahal]
      · rw [if_neg hst]
        have hp : 0 < mahal (covOf X) (atTime X t - atTime X s) := mahal_pos F (sub_ne_zero.2 (Ne.symm (hd s hs hst)))
        have e : (fun h : ℝ => Real.exp (-(mahal (covOf X) (atTime X t - atTime X s)) / (2 * h ^ 2))) =
            fun h : ℝ => Real.exp (-(mahal (covOf X) (atTime X t - atTime X s) / 2 * (h ^ 2)⁻¹)) := by
          funext h
          congr 1
          by_cases h0 : h = 0
          · simp [h0]
          · field_simp
        rw [e]
        refine Real.tendsto_exp_neg_atTop_nhds_zero.comp ?_
        refine Filter.Tendsto.const_mul_atTop (by positivity) ?_
        refine Filter.Tendsto.inv_tendsto_nhdsGT_zero ?_
        refine tendsto_nhdsWithin_of_tendsto_nhds_of_eventually_within _ ?_ ?_
        · have : Filter.Tendsto (fun h : ℝ => h ^ 2) (𝓝 0) (𝓝 (0 ^ 2)) := (continuous_pow 2).tendsto 0
          simpa using this.mono_left nhdsWithin_le_nhds
        · filter_upwards [self_mem_nhdsWithin] with h hh
          have : (0 : ℝ) < h := hh
          show 0 < h ^ 2
          positivity)
  have e : mean ((List.range n).map (fun s => if s = t then (1 : ℝ) else 0)) = 1 / n := by
    unfold mean
    rw [List.length_map, List.length_range]
    congr 1
    have : ∀ k, ((List.range k).map (fun s => if s = t then (1 : ℝ) else 0)).sum = if t < k then 1 else 0 := by
      intro k
      induction k with
      | zero => simp
      | succ k ih =>
        rw [List.range_succ, List.map_append, List.sum_append, ih]
        simp only [List.map_cons, List.map_nil, List.sum_cons, List.sum_nil, add_zero]
        by_cases h1 : t < k
        · rw [if_pos h1, if_neg (by omega), if_pos (by omega)]; simp
        · by_cases h2 : k = t
          · rw [if_neg h1, if_pos h2, if_pos (by omega)]; simp
          · rw [if_neg h1, if_neg h2, if_neg (by omega)]; simp
    rw [this, if_pos ht]
  rw [e] at key
  exact key

theorem gaussMI_eq {X : Fin m → List ℝ} (F : Fit n X) {h : ℝ} (hh : 0 < h) :
    gaussMI n X h = mean ((List.range n).map (fun t => normalMI X + Real.log (gWeight n X h (atTime X t)) +
        ∑ j, - Real.log (gWeight n (fun _ : Fin 1 => X j) h (atTime (fun _ : Fin 1 => X j) t)))) := by
  unfold gaussMI
  congr 1
  exact List.map_congr_left fun t ht => gaussMI_split F hh (List.mem_range.1 ht)

/-- For large bandwidths the mutual information tends to that of a normal distribution with the sample covariance, half the
logarithm of the product of the variances over the determinant of the covariance matrix: the kernel estimate then only sees
linear correlation. -/
theorem C71_mi_large_bandwidth (eig : Eig) (he : EigOK eig) (X : Fin m → List ℝ) (hm : 2 ≤ m) (hn : 2 ≤ n) (hX : ∀ j, (X j).length = n)
    (hs : Spread X) (w : Int) (hw : 1 ≤ w) (b : Base) (hb : b.Valid) (ε : ℝ) (hε : 0 < ε) :
    ∃ h₀ : ℝ, 0 < h₀ ∧ ∀ h, h₀ ≤ h → ∃ v,
      kernelMI (List.ofFn (fun j => KVar.one (X j))) (some 0) false (gaussCfg eig h w) b = .ok v ∧
      |v * b.ln - Real.log ((∏ j, sampleVar (X j)) / (covOf X).det) / 2| < ε := by
  have F := fit_spread (by omega) hn hX hs
  have lim : Filter.Tendsto (fun h => mean ((List.range n).map (fun t => normalMI X + Real.log (gWeight n X h (atTime X t)) +
        ∑ j, - Real.log (gWeight n (fun _ : Fin 1 => X j) h (atTime (fun _ : Fin 1 => X j) t))))) Filter.atTop (𝓝 (normalMI X)) := by
    have := tendsto_mean (n := n) (F := Filter.atTop) (f := fun t h => normalMI X + Real.log (gWeight n X h (atTime X t)) +
        ∑ j, - Real.log (gWeight n (fun _ : Fin 1 => X j) h (atTime (fun _ : Fin 1 => X j) t)))
        (L := fun _ => normalMI X + Real.log 1 + ∑ j : Fin m, - Real.log 1) (fun t _ => by
      refine (tendsto_const_nhds.add ?_).add (tendsto_finsetSum _ fun j _ => Filter.Tendsto.neg ?_)
      · exact (weight_atTop hn X _).log one_ne_zero
      · exact (weight_atTop hn _ _).log one_ne_zero)
    rw [gMean_const hn] at this
    simpa using this
  obtain ⟨h₀, H⟩ := Filter.eventually_atTop.1 (Metric.tendsto_nhds.1 lim ε hε)
  refine ⟨max h₀ 1, by positivity, fun h hh => ?_⟩
  have h1 : 0 < h := lt_of_lt_of_le one_pos ((le_max_right h₀ 1).trans hh)
  refine ⟨_, C71_mi_value eig he X hm hn hX hs h h1 w hw b hb, ?_⟩
  rw [div_mul_cancel₀ _ hb.ln_ne, gaussMI_eq F h1]
  exact H h ((le_max_left h₀ 1).trans hh)

example (eig : Eig) (he : EigOK eig) := C71_mi_large_bandwidth eig he gEx (by norm_num) (by norm_num) gEx_length gEx_spread 1 le_rfl (.num 2)
  (by norm_num [Base.Valid]) (1 / 100) (by norm_num)

/-- For small bandwidths, if no value occurs twice in a series, it tends to `(m-1) log n` plus the same constant, whatever the
dependence of the variables. -/
theorem C71_mi_small_bandwidth (eig : Eig) (he : EigOK eig) (X : Fin m → List ℝ) (hm : 2 ≤ m) (hn : 2 ≤ n) (hX : ∀ j, (X j).length = n)
    (hs : Spread X) (hd : ∀ j, (X j).Nodup) (w : Int) (hw : 1 ≤ w) (b : Base) (hb : b.Valid) (ε : ℝ) (hε : 0 < ε) :
    ∃ h₀ : ℝ, 0 < h₀ ∧ ∀ h, 0 < h → h < h₀ → ∃ v,
      kernelMI (List.ofFn (fun j => KVar.one (X j))) (some 0) false (gaussCfg eig h w) b = .ok v ∧
      |v * b.ln - (Real.log ((∏ j, sampleVar (X j)) / (covOf X).det) / 2 + (m - 1) * Real.log n)| < ε := by
  have F := fit_spread (by omega) hn hX hs
  have hn' : (n : ℝ) ≠ 0 := by
    have : 0 < n := by omega
    positivity
  have Fj : ∀ j, Fit n (fun _ : Fin 1 => X j) := fun j => fit_one (F.len j) F.two (covOf_diag_pos F.pd j)
  have hne : ∀ j, ∀ t < n, ∀ s < n, s ≠ t → (X j).getD s 0 ≠ (X j).getD t 0 := by
    intro j t ht s hs hst he
    have h1 : s < (X j).length := by rw [hX j]; exact hs
    have h2 : t < (X j).length := by rw [hX j]; exact ht
    simp only [List.getD_eq_getElem?_getD, List.getElem?_eq_getElem h1, List.getElem?_eq_getElem h2, Option.getD_some] at he
    exact hst ((hd j).getElem_inj_iff.1 he)
  have lim : Filter.Tendsto (fun h => mean ((List.range n).map (fun t => normalMI X + Real.log (gWeight n X h (atTime X t)) +
        ∑ j, - Real.log (gWeight n (fun _ : Fin 1 => X j) h (atTime (fun _ : Fin 1 => X j) t))))) (𝓝[>] 0)
        (𝓝 (normalMI X + (m - 1) * Real.log n)) := by
    have := tendsto_mean (n := n) (F := 𝓝[>] (0 : ℝ)) (f := fun t h => normalMI X + Real.log (gWeight n X h (atTime X t)) +
        ∑ j, - Real.log (gWeight n (fun _ : Fin 1 => X j) h (atTime (fun _ : Fin 1 => X j) t)))
        (L := fun _ => normalMI X + Real.log (1 / n) + ∑ j : Fin m, - Real.log (1 / n)) (fun t ht => by
      refine (tendsto_const_nhds.add ?_).add (tendsto_finsetSum _ fun j _ => Filter.Tendsto.neg ?_)
      · refine (weight_zero F ht fun s hs hst he => ?_).log (by positivity)
        exact hne ⟨0, by omega⟩ t ht s hs hst (congrFun he ⟨0, by omega⟩)
      · refine (weight_zero (Fj j) ht fun s hs hst he => ?_).log (by positivity)
        exact hne j t ht s hs hst (congrFun he 0))
    rw [gMean_const hn] at this
    convert this using 2
    rw [one_div, Real.log_inv, Finset.sum_const, Finset.card_univ, Fintype.card_fin, nsmul_eq_mul]
    ring
  have H := Metric.tendsto_nhds.1 lim ε hε
  rw [eventually_nhdsWithin_iff, Metric.eventually_nhds_iff] at H
  obtain ⟨h₀, hpos, H⟩ := H
  refine ⟨h₀, hpos, fun h h1 h2 => ⟨_, C71_mi_value eig he X hm hn hX hs h h1 w hw b hb, ?_⟩⟩
  rw [div_mul_cancel₀ _ hb.ln_ne, gaussMI_eq F h1]
  exact H (by rw [Real.dist_eq, sub_zero, abs_of_pos h1]; exact h2) h1

example (eig : Eig) (he : EigOK eig) := C71_mi_small_bandwidth eig he gPair (by norm_num) (by norm_num) gPair_length gPair_spread gPair_nodup
  1 le_rfl (.num 2) (by norm_num [Base.Valid]) (1 / 100) (by norm_num)

end Verif
