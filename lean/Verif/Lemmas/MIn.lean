import Verif.Lemmas.MI2

/-! # Helper lemmas: local values and the `Counter` implementation of n-variable MI -/

namespace Verif

open Spec

variable {α : Type} [LinearOrder α] [Inhabited α]

/-- pointwise total correlation (nats) of sample `t` -/
noncomputable def tcLocal (N : Nat) (data : List (List α)) (t : Nat) : ℝ :=
  Real.log (cnt (Spec.rows N data) (Spec.row data t))
    - (data.map (fun c => Real.log (cnt c (c.getD t default)))).sum
    + ((data.length : ℝ) - 1) * Real.log N

theorem tc_eq_mean (data : List (List α)) (N : Nat) (hN : 0 < N) (hl : ∀ c ∈ data, c.length = N) :
    Spec.totalCorrelation N data = ((List.range N).map (tcLocal N data)).sum / N :=
  totalCorrelation_sample data N hN hl

omit [LinearOrder α] [Inhabited α] in
theorem head_len {data : List (List α)} {N : Nat} (hne : data ≠ [])
    (hl : ∀ c ∈ data, c.length = N) : (data.headD []).length = N := by
  cases data with
  | nil => exact absurd rfl hne
  | cons c cs => exact hl c (by simp)

/-- log of the product of the marginal frequencies -/
theorem log_prod_freq (data : List (List α)) (N : Nat) (hN : 0 < N)
    (hl : ∀ c ∈ data, c.length = N) (t : Nat) (ht : t < N) :
    0 < (data.map (fun c => ((cnt c (c.getD t default) : ℕ) : ℝ) / (N : ℝ))).prod ∧
    Real.log (data.map (fun c => ((cnt c (c.getD t default) : ℕ) : ℝ) / (N : ℝ))).prod =
      (data.map (fun c => Real.log (cnt c (c.getD t default)))).sum
        - (data.length : ℝ) * Real.log N := by
  have hN' : (0:ℝ) < N := by exact_mod_cast hN
  have hpos : ∀ c ∈ data, (0:ℝ) < ((cnt c (c.getD t default) : ℕ) : ℝ) := fun c hc => by
    exact_mod_cast cnt_pos_iff.2 (getD_mem c t (by rw [hl c hc]; exact ht))
  refine ⟨List.prod_pos ?_, ?_⟩
  · intro x hx
    obtain ⟨c, hc, rfl⟩ := List.mem_map.1 hx
    exact div_pos (hpos c hc) hN'
  · rw [log_list_prod data (fun c => ((cnt c (c.getD t default) : ℕ) : ℝ) / (N : ℝ))
      (fun c hc => div_pos (hpos c hc) hN')]
    clear hl
    induction data with
    | nil => simp
    | cons c cs ih =>
      have h1 := ih (fun d hd => hpos d (by simp [hd]))
      simp only [List.map_cons, List.sum_cons, List.length_cons]
      rw [h1, Real.log_div (hpos c (by simp)).ne' hN'.ne']
      push_cast; ring

theorem miNdOther_ok (data : List (List α)) (N : Nat) (hN : 0 < N) (hne : data ≠ [])
    (hl : ∀ c ∈ data, c.length = N) {b : Base} (hb : b.Valid) (mm : Option Base) :
    miNdOther (logBase b) data mm =
      addCorr mm (fun base => millerMadowCorr (data.map (fun v => (npUnique v).length))
        (Spec.rows N data).toFinset.card N base none) (Spec.totalCorrelation N data / b.ln) := by
  have hN' : (0:ℝ) < N := by exact_mod_cast hN
  unfold miNdOther
  simp only [head_len hne hl]
  have hj : (List.range N).map (fun t => data.map (fun c => c.getD t default)) = Spec.rows N data := rfl
  rw [hj, Coo.total_ofRows]
  have hrl : (Spec.rows N data).length = N := by simp [Spec.rows]
  rw [hrl]
  rw [mapM_ok (g := fun e => (e.2 : ℝ) * ((fun r => (Real.log (cnt (Spec.rows N data) r)
      - Real.log (((data.zip r).map (fun m => ((cnt m.1 m.2 : ℕ) : ℝ) / (N : ℝ))).prod)
      - Real.log N) / N / b.ln) e.1))]
  · simp only [bind, Except.bind]
    rw [if_neg]
    swap
    · rw [List.length_map, Coo.cells_ofRows, List.length_map]
      have hm : Spec.row data 0 ∈ (Spec.rows N data).dedup :=
        List.mem_dedup.2 (List.mem_map.2 ⟨0, List.mem_range.2 hN, rfl⟩)
      have := List.length_pos_of_mem hm
      omega
    have e1 : (data.map (fun v => Coo.ofRows v)).map (fun m => m.coords.length) =
        data.map (fun v => (npUnique v).length) := by
      rw [List.map_map]
      refine List.map_congr_left fun v _ => ?_
      simp [Coo.ofRows, (npUnique_perm v).length_eq]
    have e2 : (Coo.ofRows (Spec.rows N data)).coords.length = (Spec.rows N data).toFinset.card := by
      simp [Coo.ofRows, List.card_toFinset]
    rw [e1, e2]
    congr 1
    refine (Coo.sum_cells (Spec.rows N data) (fun r => (Real.log (cnt (Spec.rows N data) r)
      - Real.log (((data.zip r).map (fun m => ((cnt m.1 m.2 : ℕ) : ℝ) / (N : ℝ))).prod)
      - Real.log N) / N / b.ln)).trans ?_
    rw [tc_eq_mean data N hN hl]
    have hr : (Spec.rows N data).map (fun r => (Real.log (cnt (Spec.rows N data) r)
      - Real.log (((data.zip r).map (fun m => ((cnt m.1 m.2 : ℕ) : ℝ) / (N : ℝ))).prod)
      - Real.log N) / N / b.ln) = (List.range N).map (fun t => tcLocal N data t / N / b.ln) := by
      conv_lhs =>
        arg 2
        rw [Spec.rows]
      rw [List.map_map]
      refine List.map_congr_left fun t ht => ?_
      simp only [Function.comp]
      have hz : (data.zip (Spec.row data t)).map (fun m => ((cnt m.1 m.2 : ℕ) : ℝ) / (N : ℝ)) =
          data.map (fun c => ((cnt c (c.getD t default) : ℕ) : ℝ) / (N : ℝ)) := by
        rw [Spec.row, zip_map_self, List.map_map]; rfl
      rw [hz, (log_prod_freq data N hN hl t (List.mem_range.1 ht)).2, tcLocal]
      ring
    rw [hr, ← sum_map_div', ← sum_map_div']
  · intro e he
    obtain ⟨h1, h2⟩ := Coo.mem_cells.1 he
    have h1' := h1
    obtain ⟨t, ht, hr⟩ := List.mem_map.1 h1
    have ht' := List.mem_range.1 ht
    have hv : (0:ℝ) < e.2 := by rw [h2]; exact_mod_cast cnt_pos_iff.2 h1'
    beta_reduce
    have hz : (((data.map (fun v => Coo.ofRows v)).zip e.1).map (fun m =>
        ((m.1.sumWhere (fun k => decide (k = m.2)) : ℕ) : ℝ) / (m.1.total : ℝ))) =
        (data.zip e.1).map (fun m => ((cnt m.1 m.2 : ℕ) : ℝ) / (N : ℝ)) := by
      rw [List.zip_map_left, List.map_map]
      refine List.map_congr_left fun m hm => ?_
      have hm' := (List.of_mem_zip (a := m.1) (b := m.2) hm).1
      simp only [Function.comp, Prod.map, id]
      rw [Coo.sumWhere_ofRows, Coo.total_ofRows, hl _ hm']
      rfl
    have hz2 : (data.zip e.1).map (fun m => ((cnt m.1 m.2 : ℕ) : ℝ) / (N : ℝ)) =
        data.map (fun c => ((cnt c (c.getD t default) : ℕ) : ℝ) / (N : ℝ)) := by
      rw [← hr, Spec.row, zip_map_self, List.map_map]; rfl
    rw [hz, hz2]
    obtain ⟨hp, _⟩ := log_prod_freq data N hN hl t ht'
    rw [logBase_ok hb (div_pos (div_pos hv hN') hp), Real.log_div (div_pos hv hN').ne' hp.ne',
      Real.log_div hv.ne' hN'.ne']
    simp only [bind, Except.bind, pure, Except.pure]
    rw [← h2]
    congr 1
    field_simp
    ring

/-- correction term common to global and local values -/
theorem addCorr_ok (mm : Option Base) (hmm : ∀ b' ∈ mm, b'.Valid)
    (kI : List Nat) (kJ n : Nat) (kc : Option Nat) (v : ℝ) (hn : n ≠ 0) :
    addCorr mm (fun base => millerMadowCorr kI kJ n base kc) v =
      .ok (v + match mm with
        | none => 0
        | some b' => ((kI.sum : ℝ) - kI.length - kJ + 1
            - (match kc with | some k => (k : ℝ) - 1 | none => 0)) / (2 * n) / b'.ln) := by
  cases mm with
  | none => simp [addCorr]
  | some b' =>
    simp only [addCorr, millerMadowCorr, if_neg hn, scaleBase_ok (hmm b' rfl), bind, Except.bind, pure,
      Except.pure]
    cases kc <;> rfl

theorem margins_zip_real (data : List (List α)) (N : Nat) (hne : data ≠ [])
    (hl : ∀ c ∈ data, c.length = N) (t : Nat) (ht : t < N) :
    (((miMargins data).zip
      (data.map (fun c => npPos c (c.getD t default)))).map
        (fun p => ((p.1.getD p.2 0 : ℕ) : ℝ) / (N : ℝ))) =
      data.map (fun c => ((cnt c (c.getD t default) : ℕ) : ℝ) / (N : ℝ)) := by
  have h := margins_zip data N hne hl t ht
  have h2 := congrArg (List.map (fun k : ℕ => (k : ℝ) / (N : ℝ))) h
  rw [List.map_map, List.map_map] at h2
  exact h2

theorem miLocal_ok (data : List (List α)) (N : Nat) (hN : 0 < N) (hne : data ≠ [])
    (hl : ∀ c ∈ data, c.length = N) (hc : ∀ c ∈ data, (npUnique c).length ≠ 1)
    {b : Base} (hb : b.Valid) (mm : Option Base) (corr : ℝ)
    (hcorr : ∀ v, addCorr mm (fun base => millerMadowCorr (data.map (fun v => (npUnique v).length))
        (Spec.rows N data).toFinset.card N base none) v = .ok (v + corr)) :
    miLocal (logBase b) data mm =
      .ok ((List.range N).map (fun t => tcLocal N data t / b.ln + corr)) := by
  have hN' : (0:ℝ) < N := by exact_mod_cast hN
  unfold miLocal
  simp only []
  rw [if_neg]
  swap
  · simp only [miMargins, List.any_map, List.any_eq_true, List.mem_range, Function.comp, Coo.margin_length,
      decide_eq_true_eq, not_exists, not_and]
    intro i hi
    rw [getD_map_of_lt _ _ _ _ hi]
    exact hc _ (List.getElem_mem hi)
  have hrl : (indexRows data).length = N := by rw [indexRows_eq data N hne hl]; simp
  rw [Coo.total_ofRows, hrl, Coo.vals_length, card_indexRows data N hne hl, head_len hne hl]
  simp only [hcorr]
  rw [mapM_ok (g := fun r => (Real.log (cnt (indexRows data) r)
      - Real.log (((miMargins data).zip r).map (fun p => ((p.1.getD p.2 0 : ℕ) : ℝ) / (N : ℝ))).prod
      - Real.log N) / b.ln + corr)]
  · congr 1
    conv_lhs =>
      arg 2
      rw [indexRows_eq data N hne hl]
    rw [List.map_map]
    refine List.map_congr_left fun t ht => ?_
    have ht' := List.mem_range.1 ht
    simp only [Function.comp]
    rw [margins_zip_real data N hne hl t ht', cnt_indexRows data N hne hl t ht',
      (log_prod_freq data N hN hl t ht').2, tcLocal]
    congr 2
    ring
  · intro r hr
    have hr' := hr
    rw [indexRows_eq data N hne hl] at hr
    obtain ⟨t, ht, rfl⟩ := List.mem_map.1 hr
    have ht' := List.mem_range.1 ht
    rw [margins_zip_real data N hne hl t ht', Coo.sumWhere_ofRows]
    have hcp : (0:ℝ) < cnt (indexRows data) (data.map (fun c => npPos c (c.getD t default))) := by
      exact_mod_cast cnt_pos_iff.2 hr'
    obtain ⟨hp, _⟩ := log_prod_freq data N hN hl t ht'
    have hcp' : (0:ℝ) < ((indexRows data).countP (fun s => decide (s =
      data.map (fun c => npPos c (c.getD t default)))) : ℝ) := hcp
    rw [logBase_ok hb hp, logBase_ok hb (div_pos hcp' hN'), Real.log_div hcp'.ne' hN'.ne']
    simp only [bind, Except.bind]
    congr 2
    rw [← neg_div, ← add_div, cnt]
    congr 1
    ring

/-- two-variable total correlation is mutual information -/
theorem tc_pair (xs ys : List α) (h : xs.length = ys.length) :
    Spec.totalCorrelation xs.length [xs, ys] = Spec.mi xs ys := by
  rw [Spec.totalCorrelation, mi_eq_entropies xs ys h]
  simp only [List.map_cons, List.map_nil, List.sum_cons, List.sum_nil, add_zero]
  congr 1
  have e : xs.zip ys = (List.range xs.length).map (fun t => (xs.getD t default, ys.getD t default)) := by
    conv_lhs => rw [← col_map_range xs xs.length rfl, ← col_map_range ys xs.length h.symm]
    rw [zip_map_map]
  rw [e, Spec.rows]
  refine entropy_map_congr _ _ _ fun u _ v _ => ?_
  simp [Spec.row]

theorem card_rows_pair (xs ys : List α) (h : xs.length = ys.length) :
    (xs.zip ys).toFinset.card = (Spec.rows xs.length [xs, ys]).toFinset.card := by
  have e : xs.zip ys = (List.range xs.length).map (fun t => (xs.getD t default, ys.getD t default)) := by
    conv_lhs => rw [← col_map_range xs xs.length rfl, ← col_map_range ys xs.length h.symm]
    rw [zip_map_map]
  rw [e, Spec.rows]
  refine card_map_congr _ _ _ fun u _ v _ => ?_
  simp [Spec.row]

end Verif
