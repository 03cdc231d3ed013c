import Verif.Lemmas.MIn

/-! # Helper lemmas: conditional mutual information on contingency tables -/

namespace Verif

open Spec

variable {α γ : Type} [LinearOrder α] [LinearOrder γ] [Inhabited α] [Inhabited γ]

/-- `Σ H(X_i, Z) − H(X_1, …, X_n, Z) − H(Z)` -/
noncomputable def condInter (N : Nat) (data : List (List α)) (zs : List γ) : ℝ :=
  (data.map (fun c => entropy (c.zip zs))).sum - entropy ((Spec.rows N data).zip zs) - entropy zs

/-- pointwise version of `condInter` at sample `t` -/
noncomputable def condLocal (N : Nat) (data : List (List α)) (zs : List γ) (t : Nat) : ℝ :=
  Real.log (cnt ((Spec.rows N data).zip zs) (Spec.row data t, zs.getD t default))
    + Real.log (cnt zs (zs.getD t default))
    - (data.map (fun c => Real.log (cnt (c.zip zs) (c.getD t default, zs.getD t default)))).sum
    + ((data.length : ℝ) - 2) * Real.log N

omit [LinearOrder α] [LinearOrder γ] in
theorem zip_range (xs : List α) (zs : List γ) (N : Nat) (h1 : xs.length = N) (h2 : zs.length = N) :
    xs.zip zs = (List.range N).map (fun t => (xs.getD t default, zs.getD t default)) := by
  conv_lhs => rw [← col_map_range xs N h1, ← col_map_range zs N h2]
  rw [zip_map_map]

omit [LinearOrder α] [LinearOrder γ] in
theorem rows_zip_range (data : List (List α)) (zs : List γ) (N : Nat) (h2 : zs.length = N) :
    (Spec.rows N data).zip zs = (List.range N).map (fun t => (Spec.row data t, zs.getD t default)) := by
  conv_lhs => rw [← col_map_range zs N h2]
  rw [Spec.rows, zip_map_map]

theorem condInter_eq_mean (data : List (List α)) (zs : List γ) (N : Nat) (hN : 0 < N)
    (hl : ∀ c ∈ data, c.length = N) (hz : zs.length = N) :
    condInter N data zs = ((List.range N).map (condLocal N data zs)).sum / N := by
  have hN' : (0:ℝ) < N := by exact_mod_cast hN
  have hmap : ∀ {δ : Type} [DecidableEq δ] (f : Nat → δ), entropy ((List.range N).map f) =
      ((List.range N).map (fun t => Real.log N - Real.log (cnt ((List.range N).map f) (f t)))).sum / N := by
    intro δ _ f
    rw [entropy_map_eq, List.length_range]
    congr 2
    refine List.map_congr_left fun t ht => ?_
    have hp : (0:ℝ) < cnt ((List.range N).map f) (f t) := by
      exact_mod_cast count_map_pos f ht
    unfold freq
    rw [List.length_map, List.length_range, Real.log_div hp.ne' hN'.ne']; ring
  have key : ∀ cs : List (List α), (∀ c ∈ cs, c.length = N) →
      (cs.map (fun c => entropy (c.zip zs))).sum =
      ((List.range N).map (fun t => (cs.length : ℝ) * Real.log N
        - (cs.map (fun c => Real.log (cnt (c.zip zs) (c.getD t default, zs.getD t default)))).sum)).sum / N := by
    intro cs hcs
    induction cs with
    | nil => simp
    | cons c cs ih =>
      rw [List.map_cons, List.sum_cons, ih (fun d hd => hcs d (by simp [hd])),
        zip_range c zs N (hcs c (by simp)) hz, hmap, ← add_div, ← sum_map_add']
      congr 2
      refine List.map_congr_left fun t _ => ?_
      rw [List.map_cons, List.sum_cons, List.length_cons, zip_range c zs N (hcs c (by simp)) hz]
      push_cast; ring
  have hzs := hmap (fun t => zs.getD t default)
  rw [col_map_range zs N hz] at hzs
  rw [condInter, key data hl, rows_zip_range data zs N hz, hmap, hzs, ← sub_div, ← sub_div,
    ← sum_map_sub', ← sum_map_sub']
  congr 2
  refine List.map_congr_left fun t _ => ?_
  rw [condLocal, rows_zip_range data zs N hz]
  ring

omit [Inhabited γ] in
theorem condTotalCorrelation_eq (data : List (List α)) (zs : List γ) (N : Nat) :
    Spec.condTotalCorrelation N data zs =
      condInter N data zs - ((data.length : ℝ) - 2) * entropy zs := by
  have : (data.map (fun c => condEntropy c zs)).sum =
      (data.map (fun c => entropy (c.zip zs))).sum - (data.length : ℝ) * entropy zs := by
    unfold condEntropy
    rw [sum_map_sub']
    simp
  rw [Spec.condTotalCorrelation, this, condInter, condEntropy]
  ring

/-! ## the sparse table -/

theorem condRows_eq (data : List (List α)) (zs : List γ) (N : Nat)
    (hl : ∀ c ∈ data, c.length = N) (hz : zs.length = N) :
    condRows data zs = (List.range N).map
      (fun t => (data.map (fun c => npPos c (c.getD t default)), npPos zs (zs.getD t default))) := by
  rw [condRows, hz]
  refine List.map_congr_left fun t ht => ?_
  have ht' := List.mem_range.1 ht
  rw [List.map_map, getD_npInverse zs t (by rw [hz]; exact ht')]
  congr 1
  refine List.map_congr_left fun c hc => ?_
  exact getD_npInverse c t (by rw [hl c hc]; exact ht')

theorem pos_z_iff (zs : List γ) (N : Nat) (hz : zs.length = N) {s t : Nat} (hs : s < N) (ht : t < N) :
    npPos zs (zs.getD s default) = npPos zs (zs.getD t default) ↔
      zs.getD s default = zs.getD t default :=
  npPos_inj (getD_mem zs s (by rw [hz]; exact hs)) (getD_mem zs t (by rw [hz]; exact ht))

theorem cnt_condRows (data : List (List α)) (zs : List γ) (N : Nat)
    (hl : ∀ c ∈ data, c.length = N) (hz : zs.length = N) (t : Nat) (ht : t < N) :
    cnt (condRows data zs)
      (data.map (fun c => npPos c (c.getD t default)), npPos zs (zs.getD t default)) =
    cnt ((Spec.rows N data).zip zs) (Spec.row data t, zs.getD t default) := by
  rw [condRows_eq data zs N hl hz, cnt_map, rows_zip_range data zs N hz, cnt_map]
  refine List.countP_congr fun u hu => ?_
  have hu' := List.mem_range.1 hu
  simp only [decide_eq_true_eq, Prod.mk.injEq]
  rw [index_row_inj data N hl u t hu' ht, pos_z_iff zs N hz hu' ht]

theorem card_condRows (data : List (List α)) (zs : List γ) (N : Nat)
    (hl : ∀ c ∈ data, c.length = N) (hz : zs.length = N) :
    (condRows data zs).toFinset.card = ((Spec.rows N data).zip zs).toFinset.card := by
  rw [condRows_eq data zs N hl hz, rows_zip_range data zs N hz]
  exact card_map_congr _ _ _ fun u hu v hv => by
    have hu' := List.mem_range.1 hu
    have hv' := List.mem_range.1 hv
    rw [Prod.mk.injEq, Prod.mk.injEq, index_row_inj data N hl u v hu' hv', pos_z_iff zs N hz hu' hv']

/-- entry of the variable × condition table -/
theorem condMarg_eq (data : List (List α)) (zs : List γ) (N : Nat)
    (hl : ∀ c ∈ data, c.length = N) (hz : zs.length = N) (t : Nat) (ht : t < N) (i : Nat)
    (hi : i < data.length) :
    (Coo.ofRows (condRows data zs)).sumWhere (fun r =>
      decide (r.1.getD i 0 = npPos data[i] (data[i].getD t default)) &&
        decide (r.2 = npPos zs (zs.getD t default))) =
      cnt (data[i].zip zs) (data[i].getD t default, zs.getD t default) := by
  have hc := hl data[i] (List.getElem_mem hi)
  rw [Coo.sumWhere_ofRows, condRows_eq data zs N hl hz, List.countP_map,
    zip_range data[i] zs N hc hz, cnt_map]
  refine List.countP_congr fun u hu => ?_
  have hu' := List.mem_range.1 hu
  simp only [Function.comp, Bool.and_eq_true, decide_eq_true_eq, Prod.mk.injEq]
  rw [getD_map_of_lt _ _ _ _ hi, pos_z_iff zs N hz hu' ht,
    npPos_inj (getD_mem _ u (by rw [hc]; exact hu')) (getD_mem _ t (by rw [hc]; exact ht))]

theorem condOuter_eq (data : List (List α)) (zs : List γ) (N : Nat)
    (hl : ∀ c ∈ data, c.length = N) (hz : zs.length = N) (t : Nat) (ht : t < N) :
    ((data.map (fun c => npPos c (c.getD t default))).zipIdx.map (fun p =>
      (Coo.ofRows (condRows data zs)).sumWhere (fun r =>
        decide (r.1.getD p.2 0 = p.1) && decide (r.2 = npPos zs (zs.getD t default))))) =
      data.map (fun c => cnt (c.zip zs) (c.getD t default, zs.getD t default)) := by
  refine List.ext_getElem (by simp) fun i h1 h2 => ?_
  have hi : i < data.length := by simpa using h2
  simp only [List.getElem_map, List.getElem_zipIdx, zero_add]
  exact condMarg_eq data zs N hl hz t ht i hi

theorem condCount_eq (data : List (List α)) (zs : List γ) (N : Nat)
    (hl : ∀ c ∈ data, c.length = N) (hz : zs.length = N) (t : Nat) (ht : t < N) :
    ((Coo.ofRows (condRows data zs)).margin (fun r => r.2) (npUnique zs).length).getD
      (npPos zs (zs.getD t default)) 0 = cnt zs (zs.getD t default) := by
  rw [Coo.margin_getD _ _ _ _ (npPos_lt (getD_mem zs t (by rw [hz]; exact ht))),
    condRows_eq data zs N hl hz, List.countP_map, ← countP_index zs N hz t ht]
  rfl

/-- number of non-empty cells of a two-way table -/
theorem condNonzero_eq (data : List (List α)) (zs : List γ) (N : Nat)
    (hl : ∀ c ∈ data, c.length = N) (hz : zs.length = N) (i : Nat) (hi : i < data.length) :
    condNonzero (Coo.ofRows (condRows data zs)) i (npUnique data[i]).length (npUnique zs).length =
      (data[i].zip zs).toFinset.card := by
  have hc := hl data[i] (List.getElem_mem hi)
  unfold condNonzero
  simp only [Coo.sumWhere_ofRows]
  have conv : ∀ (n : Nat) (f : Nat → Nat), ((List.range n).map f).sum = ∑ j ∈ Finset.range n, f j := by
    intro n f
    rw [← List.sum_toFinset _ List.nodup_range, List.toFinset_range]
  simp only [conv]
  rw [← Finset.sum_product']
  have : ∀ p : Nat × Nat, (if List.countP (fun r : List Nat × Nat =>
      decide (r.1.getD i 0 = p.1) && decide (r.2 = p.2)) (condRows data zs) = 0 then 0 else 1) =
      if p ∈ ((List.range N).map (fun t => (npPos data[i] (data[i].getD t default),
        npPos zs (zs.getD t default)))).toFinset then 1 else 0 := by
    intro p
    have : List.countP (fun r : List Nat × Nat =>
      decide (r.1.getD i 0 = p.1) && decide (r.2 = p.2)) (condRows data zs) = 0 ↔
      ¬ p ∈ ((List.range N).map (fun t => (npPos data[i] (data[i].getD t default),
        npPos zs (zs.getD t default)))).toFinset := by
      rw [condRows_eq data zs N hl hz, List.countP_eq_zero]
      simp only [List.mem_map, List.mem_toFinset, not_exists, not_and, Bool.and_eq_true,
        decide_eq_true_eq, forall_exists_index, and_imp]
      constructor
      · intro h t ht he
        rw [Prod.ext_iff] at he
        refine h _ t ht rfl ?_ he.2
        rw [getD_map_of_lt _ _ _ _ hi]; exact he.1
      · intro h r t ht hr h1 h2
        subst hr
        rw [getD_map_of_lt _ _ _ _ hi] at h1
        exact h t ht (Prod.ext h1 h2)
    by_cases hp : p ∈ ((List.range N).map (fun t => (npPos data[i] (data[i].getD t default),
        npPos zs (zs.getD t default)))).toFinset
    · rw [if_pos hp, if_neg (fun h0 => this.1 h0 hp)]
    · rw [if_neg hp, if_pos (this.2 hp)]
  simp only [this]
  rw [Finset.sum_ite_mem, Finset.sum_const, smul_eq_mul, mul_one, Finset.inter_eq_right.2]
  · rw [zip_range data[i] zs N hc hz]
    refine card_map_congr _ _ _ fun u hu v hv => ?_
    have hu' := List.mem_range.1 hu
    have hv' := List.mem_range.1 hv
    rw [Prod.mk.injEq, Prod.mk.injEq, pos_z_iff zs N hz hu' hv',
      npPos_inj (getD_mem _ u (by rw [hc]; exact hu')) (getD_mem _ v (by rw [hc]; exact hv'))]
  · intro p hp
    simp only [List.mem_toFinset, List.mem_map] at hp
    obtain ⟨t, ht, rfl⟩ := hp
    have ht' := List.mem_range.1 ht
    rw [Finset.mem_product, Finset.mem_range, Finset.mem_range]
    exact ⟨npPos_lt (getD_mem _ t (by rw [hc]; exact ht')), npPos_lt (getD_mem _ t (by rw [hz]; exact ht'))⟩

theorem condShape_eq (data : List (List α)) (zs : List γ) (N : Nat)
    (hl : ∀ c ∈ data, c.length = N) (hz : zs.length = N) :
    ((data.map (fun v => (npUnique v).length)).zipIdx.map (fun p =>
      condNonzero (Coo.ofRows (condRows data zs)) p.2 p.1 (npUnique zs).length)) =
    data.map (fun c => (c.zip zs).toFinset.card) := by
  refine List.ext_getElem (by simp) fun i h1 h2 => ?_
  have hi : i < data.length := by simpa using h2
  simp only [List.getElem_map, List.getElem_zipIdx, zero_add]
  exact condNonzero_eq data zs N hl hz i hi

theorem cmiNdInt_ok (data : List (List α)) (zs : List γ) (N : Nat) (hN : 0 < N) (hne : data ≠ [])
    (hl : ∀ c ∈ data, c.length = N) (hz : zs.length = N)
    (hc : ∀ c ∈ data, (npUnique c).length * (npUnique zs).length ≠ 1)
    (hov : N ^ data.length < 2 ^ 64) (hov2 : N ^ 2 < 2 ^ 64)
    {b : Base} (hb : b.Valid) (mm : Option Base) :
    cmiNdInt (logBase b) data zs mm =
      addCorr mm (fun base => millerMadowCorr (data.map (fun c => (c.zip zs).toFinset.card))
        ((Spec.rows N data).zip zs).toFinset.card N base (some (npUnique zs).length))
        (condInter N data zs / b.ln) := by
  have hN' : (0:ℝ) < N := by exact_mod_cast hN
  unfold cmiNdInt
  simp only [Coo.margin_length]
  rw [if_neg]
  swap
  · simp only [List.any_map, List.any_eq_true, Function.comp, decide_eq_true_eq, not_exists, not_and]
    exact hc
  have hrl : (condRows data zs).length = N := by rw [condRows_eq data zs N hl hz]; simp
  rw [Coo.total_ofRows, hrl, Coo.vals_length, card_condRows data zs N hl hz, head_len hne hl,
    condShape_eq data zs N hl hz]
  have hlogs : (List.range (data.length - 1)).mapM (fun _ => logBase b (N : ℝ)) =
      .ok ((List.range (data.length - 1)).map (fun _ => Real.log N / b.ln)) :=
    mapM_ok _ fun _ _ => logBase_ok hb hN'
  have hlsum : ((List.range (data.length - 1)).map (fun _ => Real.log N / b.ln)).sum =
      ((data.length : ℝ) - 1) * (Real.log N / b.ln) := by
    have : 1 ≤ data.length := List.length_pos_iff.2 hne
    simp [Nat.cast_sub this]
  rw [hlogs]
  set rows := condRows data zs with hrows
  -- value of one cell, as a function of its coordinates
  set outerF : List Nat × Nat → ℕ := fun r => (r.1.zipIdx.map (fun p =>
      (Coo.ofRows rows).sumWhere (fun s => decide (s.1.getD p.2 0 = p.1) && decide (s.2 = r.2)))).prod
    with houterF
  set cF : List Nat × Nat → ℕ := fun r =>
    ((Coo.ofRows rows).margin (fun r => r.2) (npUnique zs).length).getD r.2 0 with hcF
  have hout : ∀ t < N, outerF (data.map (fun c => npPos c (c.getD t default)),
      npPos zs (zs.getD t default)) =
      (data.map (fun c => cnt (c.zip zs) (c.getD t default, zs.getD t default))).prod := by
    intro t ht
    rw [houterF]
    simp only []
    rw [hrows, condOuter_eq data zs N hl hz t ht]
  have hcz : ∀ t < N, cF (data.map (fun c => npPos c (c.getD t default)),
      npPos zs (zs.getD t default)) = cnt zs (zs.getD t default) := by
    intro t ht
    rw [hcF]
    simp only []
    rw [hrows, condCount_eq data zs N hl hz t ht]
  have hposc : ∀ t < N, ∀ c ∈ data, 0 < cnt (c.zip zs) (c.getD t default, zs.getD t default) := by
    intro t ht c hcm
    rw [cnt_pos_iff, zip_range c zs N (hl c hcm) hz]
    exact List.mem_map_of_mem (List.mem_range.2 ht)
  rw [mapM_ok (g := fun e => (e.2 : ℝ) * ((fun r => (Real.log (cnt rows r) + Real.log (cF r)
      - Real.log (outerF r) + ((data.length : ℝ) - 2) * Real.log N) / N / b.ln) e.1))]
  · simp only [bind, Except.bind]
    congr 1
    refine (Coo.sum_cells rows (fun r => (Real.log (cnt rows r) + Real.log (cF r)
      - Real.log (outerF r) + ((data.length : ℝ) - 2) * Real.log N) / N / b.ln)).trans ?_
    rw [condInter_eq_mean data zs N hN hl hz]
    conv_lhs =>
      arg 1
      arg 2
      rw [hrows, condRows_eq data zs N hl hz]
    rw [List.map_map, ← sum_map_div', ← sum_map_div']
    congr 1
    refine List.map_congr_left fun t ht => ?_
    have ht' := List.mem_range.1 ht
    simp only [Function.comp]
    rw [hout t ht', hcz t ht', hrows, cnt_condRows data zs N hl hz t ht', condLocal]
    congr 5
    rw [← log_list_prod data (fun c => ((cnt (c.zip zs) (c.getD t default, zs.getD t default) : ℕ) : ℝ))]
    · congr 1
      rw [Nat.cast_list_prod, List.map_map]; rfl
    · intro c hcm
      exact_mod_cast hposc t ht' c hcm
  · intro e he
    obtain ⟨h1, h2⟩ := Coo.mem_cells.1 he
    have h1' := h1
    rw [hrows, condRows_eq data zs N hl hz] at h1
    obtain ⟨t, ht, hr⟩ := List.mem_map.1 h1
    have ht' := List.mem_range.1 ht
    have hv : 0 < e.2 := by rw [h2]; exact cnt_pos_iff.2 h1'
    have hvle : e.2 ≤ N := by rw [h2, ← hrl]; exact cnt_le_length _ _
    have hout' := hout t ht'
    have hcz' := hcz t ht'
    rw [hr] at hout' hcz'
    have hzpos : 0 < cnt zs (zs.getD t default) :=
      cnt_pos_iff.2 (getD_mem zs t (by rw [hz]; exact ht'))
    have hzle : cnt zs (zs.getD t default) ≤ N := by rw [← hz]; exact cnt_le_length _ _
    have hoo : 0 < (data.map (fun c => cnt (c.zip zs) (c.getD t default, zs.getD t default))).prod := by
      refine List.prod_pos fun x hx => ?_
      obtain ⟨c, hcm, rfl⟩ := List.mem_map.1 hx
      exact hposc t ht' c hcm
    have hole : outerF e.1 < 2 ^ 64 := by
      rw [hout']
      refine lt_of_le_of_lt (prod_le_pow _ N ?_) (by rw [List.length_map]; exact hov)
      intro x hx
      obtain ⟨c, hcm, rfl⟩ := List.mem_map.1 hx
      refine (cnt_le_length _ _).trans ?_
      rw [List.length_zip, hl c hcm, hz]; simp
    have hpu : prodU64 (e.1.1.zipIdx.map (fun p => (Coo.ofRows rows).sumWhere (fun s =>
        decide (s.1.getD p.2 0 = p.1) && decide (s.2 = e.1.2)))) = outerF e.1 := prodU64_eq_prod hole
    have hcf : ((Coo.ofRows rows).margin (fun r => r.2) (npUnique zs).length).getD e.1.2 0 = cF e.1 := rfl
    beta_reduce
    rw [hpu, hcf]
    have hlt : [e.2, cF e.1].prod < 2 ^ 64 := by
      refine lt_of_le_of_lt ?_ hov2
      simp only [List.prod_cons, List.prod_nil, mul_one, pow_two]
      exact Nat.mul_le_mul hvle (by rw [hcz']; exact hzle)
    rw [prodU64_eq_prod hlt]
    have hcp : (0:ℝ) < cF e.1 := by rw [hcz']; exact_mod_cast hzpos
    have hop : (0:ℝ) < outerF e.1 := by rw [hout']; exact_mod_cast hoo
    have hvr : (0:ℝ) < e.2 := by exact_mod_cast hv
    have hp : (0:ℝ) < (([e.2, cF e.1].prod : ℕ) : ℝ) := by
      simp only [List.prod_cons, List.prod_nil, mul_one]; push_cast; positivity
    rw [logBase_ok hb hp, logBase_ok hb hN', logBase_ok hb hop]
    simp only [bind, Except.bind, pure, Except.pure, hlsum]
    rw [← h2]
    congr 1
    simp only [List.prod_cons, List.prod_nil, mul_one]
    push_cast
    rw [Real.log_mul hvr.ne' hcp.ne']
    field_simp
    ring

theorem cmiLocal_ok (data : List (List α)) (zs : List γ) (N : Nat) (hN : 0 < N) (hne : data ≠ [])
    (hl : ∀ c ∈ data, c.length = N) (hz : zs.length = N)
    (hc : ∀ c ∈ data, (npUnique c).length * (npUnique zs).length ≠ 1)
    {b : Base} (hb : b.Valid) (mm : Option Base) (corr : ℝ)
    (hcorr : ∀ v, addCorr mm (fun base => millerMadowCorr
      (data.map (fun c => (c.zip zs).toFinset.card))
        ((Spec.rows N data).zip zs).toFinset.card N base (some (npUnique zs).length)) v = .ok (v + corr)) :
    cmiLocal (logBase b) data zs mm =
      .ok ((List.range N).map (fun t => condLocal N data zs t / b.ln + corr)) := by
  have hN' : (0:ℝ) < N := by exact_mod_cast hN
  unfold cmiLocal
  simp only [Coo.margin_length]
  rw [if_neg]
  swap
  · simp only [List.any_map, List.any_eq_true, Function.comp, decide_eq_true_eq, not_exists, not_and]
    exact hc
  have hrl : (condRows data zs).length = N := by rw [condRows_eq data zs N hl hz]; simp
  rw [Coo.total_ofRows, hrl, Coo.vals_length, card_condRows data zs N hl hz, head_len hne hl,
    condShape_eq data zs N hl hz]
  simp only [hcorr]
  rw [show condRows data zs = (List.range N).map (fun t =>
      (data.map (fun c => npPos c (c.getD t default)), npPos zs (zs.getD t default)))
      from condRows_eq data zs N hl hz, List.mapM_map, ← condRows_eq data zs N hl hz]
  refine mapM_ok _ fun t ht => ?_
  rw [Function.comp_apply]
  have ht' := List.mem_range.1 ht
  have hmem : (data.map (fun c => npPos c (c.getD t default)), npPos zs (zs.getD t default)) ∈
      condRows data zs := by
    rw [condRows_eq data zs N hl hz]; exact List.mem_map_of_mem ht
  have hj : (Coo.ofRows (condRows data zs)).sumWhere (fun s => decide (s =
      (data.map (fun c => npPos c (c.getD t default)), npPos zs (zs.getD t default)))) =
      cnt ((Spec.rows N data).zip zs) (Spec.row data t, zs.getD t default) := by
    rw [Coo.sumWhere_ofRows, ← cnt_condRows data zs N hl hz t ht']; rfl
  have ho : ((data.map (fun c => npPos c (c.getD t default))).zipIdx.map (fun p =>
      (((Coo.ofRows (condRows data zs)).sumWhere (fun r =>
        decide (r.1.getD p.2 0 = p.1) && decide (r.2 = npPos zs (zs.getD t default))) : ℕ) : ℝ) / N)) =
      data.map (fun c => ((cnt (c.zip zs) (c.getD t default, zs.getD t default) : ℕ) : ℝ) / N) := by
    have h := condOuter_eq data zs N hl hz t ht'
    have h2 := congrArg (List.map (fun k : ℕ => (k : ℝ) / (N : ℝ))) h
    rw [List.map_map, List.map_map] at h2
    exact h2
  rw [hj, ho, condCount_eq data zs N hl hz t ht']
  have hjp : (0:ℝ) < cnt ((Spec.rows N data).zip zs) (Spec.row data t, zs.getD t default) := by
    rw [← cnt_condRows data zs N hl hz t ht']; exact_mod_cast cnt_pos_iff.2 hmem
  have hzp : (0:ℝ) < cnt zs (zs.getD t default) := by
    exact_mod_cast cnt_pos_iff.2 (getD_mem zs t (by rw [hz]; exact ht'))
  have hcp : ∀ c ∈ data, (0:ℝ) < ((cnt (c.zip zs) (c.getD t default, zs.getD t default) : ℕ) : ℝ) / N := by
    intro c hcm
    refine div_pos ?_ hN'
    have : 0 < cnt (c.zip zs) (c.getD t default, zs.getD t default) := by
      rw [cnt_pos_iff, zip_range c zs N (hl c hcm) hz]
      exact List.mem_map_of_mem ht
    exact_mod_cast this
  have hpp : 0 < (data.map (fun c => ((cnt (c.zip zs) (c.getD t default, zs.getD t default) : ℕ) : ℝ) / N)).prod := by
    refine List.prod_pos fun x hx => ?_
    obtain ⟨c, hcm, rfl⟩ := List.mem_map.1 hx
    exact hcp c hcm
  have hlp : Real.log (data.map (fun c =>
      ((cnt (c.zip zs) (c.getD t default, zs.getD t default) : ℕ) : ℝ) / N)).prod =
      (data.map (fun c => Real.log (cnt (c.zip zs) (c.getD t default, zs.getD t default)))).sum
        - (data.length : ℝ) * Real.log N := by
    rw [log_list_prod data _ hcp]
    clear hc hl hne hcorr hpp ho hj hjp hmem hrl
    induction data with
    | nil => simp
    | cons c cs ih =>
      have h1 := ih (fun d hd => hcp d (by simp [hd]))
      have h0 : (0:ℝ) < ((cnt (c.zip zs) (c.getD t default, zs.getD t default) : ℕ) : ℝ) := by
        have := hcp c (by simp)
        rw [lt_div_iff₀ hN', zero_mul] at this; exact this
      simp only [List.map_cons, List.sum_cons, List.length_cons]
      rw [h1, Real.log_div h0.ne' hN'.ne']
      push_cast; ring
  rw [logBase_ok hb (mul_pos (div_pos hjp hN') (div_pos hzp hN')), logBase_ok hb hpp, hlp,
    Real.log_mul (div_pos hjp hN').ne' (div_pos hzp hN').ne', Real.log_div hjp.ne' hN'.ne',
    Real.log_div hzp.ne' hN'.ne']
  simp only [bind, Except.bind]
  congr 2
  rw [← sub_div, condLocal]
  congr 1
  ring

/-- two variables: conditional mutual information -/
theorem condInter_pair (xs ys : List α) (zs : List γ) (h1 : xs.length = ys.length)
    (h2 : ys.length = zs.length) : condInter xs.length [xs, ys] zs = Spec.cmi xs ys zs := by
  rw [condInter, cmi_eq_entropies xs ys zs h1 h2]
  simp only [List.map_cons, List.map_nil, List.sum_cons, List.sum_nil, add_zero]
  congr 2
  have hz : (ys.zip zs).length = ys.length := by simp [h2]
  rw [rows_zip_range _ _ _ (by omega)]
  have e : xs.zip (ys.zip zs) = (List.range xs.length).map
      (fun t => (xs.getD t default, ys.getD t default, zs.getD t default)) := by
    conv_lhs => rw [← col_map_range xs xs.length rfl, zip_range ys zs xs.length h1.symm (by omega)]
    rw [zip_map_map]
  rw [e]
  refine entropy_map_congr _ _ _ fun u _ v _ => ?_
  simp [Spec.row, Prod.ext_iff, and_assoc]

end Verif
