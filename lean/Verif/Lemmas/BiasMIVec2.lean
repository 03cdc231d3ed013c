import Verif.Lemmas.BiasMIVec

/-! # Lemmas: values of the bias-corrected mutual information of arrays of one or two dimensions -/

namespace Verif

open Spec

variable {vars : List IArr} {N : Nat}

/-- aligned arrays of `N` samples -/
structure ArrAligned (N : Nat) (vars : List IArr) : Prop where
  len : ∀ v ∈ vars, v.rows.length = N
  wide : ∀ v ∈ vars, ∃ w, v.Wide w

theorem ArrAligned.append {z : IArr} (h : ArrAligned N vars) (hz : ArrAligned N [z]) : ArrAligned N (vars ++ [z]) where
  len := by
    intro v hv
    rcases List.mem_append.1 hv with hv | hv
    · exact h.len v hv
    · exact hz.len v hv
  wide := by
    intro v hv
    rcases List.mem_append.1 hv with hv | hv
    · exact h.wide v hv
    · exact hz.wide v hv

theorem ArrAligned.pair {v z : IArr} (h : ArrAligned N vars) (hv : v ∈ vars) (hz : ArrAligned N [z]) : ArrAligned N [v, z] :=
  ArrAligned.append (vars := [v]) ⟨by simpa using h.len v hv, by simpa using h.wide v hv⟩ hz

theorem rows_arr (vars : List IArr) :
    rows N (vars.map IArr.rows) = (List.range N).map (fun t => vars.map (fun v => v.rows.getD t [])) := by
  unfold rows row
  refine List.map_congr_left fun t _ => ?_
  rw [List.map_map]; rfl

theorem arr_range (v : IArr) (h : v.rows.length = N) : v.rows = (List.range N).map (fun t => v.rows.getD t []) := by
  subst h
  apply List.ext_getElem
  · simp
  · intro i h1 h2
    simp [List.getD_eq_getElem?_getD, List.getElem?_eq_getElem h1]

theorem arr_joint (h : ArrAligned N vars) : SameCounts (rowCodes (stackRows N vars)) (rows N (vars.map IArr.rows)) := by
  rw [rows_arr]
  exact stack_same h.len h.wide _ (fun s _ t _ => List.map_inj_left.symm)

theorem arr_zip {v z : IArr} (hv : v.rows.length = N) (hz : z.rows.length = N) :
    v.rows.zip z.rows = (List.range N).map (fun t => (v.rows.getD t [], z.rows.getD t [])) := by
  conv_lhs => rw [arr_range v hv, arr_range z hz]
  exact zip_range_map _ _ _

theorem arr_rows_zip {z : IArr} (hz : z.rows.length = N) :
    (rows N (vars.map IArr.rows)).zip z.rows =
      (List.range N).map (fun t => (vars.map (fun v => v.rows.getD t []), z.rows.getD t [])) := by
  conv_lhs => rw [rows_arr, arr_range z hz]
  exact zip_range_map _ _ _

theorem arr_pair {v z : IArr} (h : ArrAligned N [v, z]) : SameCounts (rowCodes (stackRows N [v, z])) (v.rows.zip z.rows) := by
  rw [arr_zip (h.len v (by simp)) (h.len z (by simp))]
  refine stack_same h.len h.wide _ (fun s _ t _ => ?_)
  simp

theorem arr_joint_cond {z : IArr} (h : ArrAligned N vars) (hz : ArrAligned N [z]) :
    SameCounts (rowCodes (stackRows N (vars ++ [z]))) ((rows N (vars.map IArr.rows)).zip z.rows) := by
  rw [arr_rows_zip (hz.len z (by simp))]
  refine stack_same (h.append hz).len (h.append hz).wide _ (fun s _ t _ => ?_)
  rw [Prod.mk.injEq, List.map_inj_left]
  simp only [List.mem_append, List.mem_singleton]
  exact ⟨fun h => ⟨fun c hc => h c (.inl hc), h z (.inr rfl)⟩, fun h c hc => hc.elim (h.1 c) (by rintro rfl; exact h.2)⟩

theorem arr_same {v : IArr} (h : ArrAligned N vars) (hv : v ∈ vars) : SameCounts (arrCodes v) v.rows := by
  obtain ⟨w, hw⟩ := h.wide v hv
  exact arrCodes_same hw

theorem arr_ne {v : IArr} (hN : 0 < N) (h : ArrAligned N vars) (hv : v ∈ vars) : v.rows ≠ [] := by
  intro e
  have := h.len v hv
  rw [e] at this; simp at this; omega

theorem zip_arr_self (vars : List IArr) : List.zipWith (fun a r => IArr.mk a.two r) vars (vars.map IArr.rows) = vars := by
  induction vars with
  | nil => rfl
  | cons v vs ih => simp only [List.map_cons, List.zipWith_cons_cons, ih]

theorem genericMIArr_run (est : HEst) (hN : 0 < N) (h2 : 2 ≤ vars.length) (h : ArrAligned N vars) :
    genericMIArr est vars (some 0) = combineH est ((vars.map arrCodes).map mkData) ([rowCodes (stackRows N vars)].map mkData) := by
  have hc0 : vars ≠ [] := by rintro rfl; simp at h2
  have hi : miInit (vars.map IArr.rows) (some 0) = .ok (vars.map IArr.rows) :=
    miInit_ok (by simpa using h2) (by intro v hv; obtain ⟨u, hu, rfl⟩ := List.mem_map.1 hv; exact h.len u hu)
  simp only [genericMIArr, hi, bind, Except.bind, zip_arr_self, hConstructTup_ok hN hc0 h.len]
  rw [mapM_ok vars (fun v hv => hConstruct_input (arr_ne hN h hv)), List.map_map]
  rfl

theorem arr_cmiInit {z : IArr} (h2 : 2 ≤ vars.length) (h : ArrAligned N vars) (hz : ArrAligned N [z]) :
    cmiInit (vars.map IArr.rows) (some z.rows) (some 0) = .ok (vars.map IArr.rows, z.rows) := by
  have hzl := hz.len z (by simp)
  exact cmiInit_ok (by simpa using h2) (by
    intro v hv; obtain ⟨u, hu, rfl⟩ := List.mem_map.1 hv; rw [h.len u hu, hzl]) (.inl rfl)

theorem genericCMIArr_run (est : HEst) {z : IArr} (hN : 0 < N) (h2 : 2 ≤ vars.length) (h : ArrAligned N vars) (hz : ArrAligned N [z]) :
    genericCMIArr est vars z (some 0) = combineH est ((vars.map (fun v => rowCodes (stackRows N [v, z]))).map mkData)
      ([rowCodes (stackRows N (vars ++ [z])), arrCodes z].map mkData) := by
  have hj := hConstructTup_ok hN (vs := vars ++ [z]) (by simp) (h.append hz).len
  simp only [genericCMIArr, arr_cmiInit h2 h hz, bind, Except.bind, hj, hConstruct_input (arr_ne hN hz (List.mem_singleton.2 rfl))]
  rw [mapM_ok vars (fun v hv => hConstructTup_ok hN (by simp) (h.pair hv hz).len), List.map_map]
  rfl

theorem arr_stack_len (vs : List IArr) : (rowCodes (stackRows N vs)).length = N := by rw [rowCodes_length, stackRows_length]

theorem arr_miInit (h2 : 2 ≤ vars.length) (h : ArrAligned N vars) :
    miInit (vars.map IArr.rows) (some 0) = .ok (vars.map IArr.rows) :=
  miInit_ok (by simpa using h2) (by intro v hv; obtain ⟨u, hu, rfl⟩ := List.mem_map.1 hv; exact h.len u hu)

/-- mutual information of a bias-corrected class -/
theorem arr_bias_mi {c : BiasClass} {m : Method} (hm : c.Means m) (hN : 0 < N) (h2 : 2 ≤ vars.length) (h : ArrAligned N vars) {b : Base}
    (hb : b.Valid) :
    (m.Defined (rows N (vars.map IArr.rows)) → biasMIArr c vars (some 0) false b =
      .ok (((vars.map (fun v => m.value v.rows)).sum - m.value (rows N (vars.map IArr.rows))) / b.ln)) ∧
    (¬ m.Defined (rows N (vars.map IArr.rows)) → biasMIArr c vars (some 0) false b = .error .nonFinite) := by
  have hc0 : vars ≠ [] := by rintro rfl; simp at h2
  have hJ := arr_joint h
  obtain ⟨k1, k2⟩ := combine_val (means_est hm hb) hN (vars.map arrCodes) [rowCodes (stackRows N vars)] (by simpa using hc0)
    (by intro v hv; obtain ⟨u, hu, rfl⟩ := List.mem_map.1 hv; rw [arrCodes_length, h.len u hu]) (by simp [arr_stack_len])
  have e : biasMIArr c vars (some 0) false b = combineH (c.est b) ((vars.map arrCodes).map mkData) ([rowCodes (stackRows N vars)].map mkData) := by
    simp only [biasMIArr, arr_miInit h2 h, normCheck, means_check hm, bind, Except.bind, Bool.false_eq_true, if_false,
      genericMIArr_run _ hN h2 h]
  have hfac : m.Defined (rows N (vars.map IArr.rows)) → ∀ v ∈ vars, m.Defined v.rows := by
    intro hd v hv
    rw [rows_arr] at hd
    rw [arr_range v (h.len v hv)]
    exact defined_of_factor (List.range N) _ _ (fun s _ t _ hst => List.map_inj_left.1 hst v hv) m hd
  constructor
  · intro hd
    rw [e, k1]
    · have hv : (vars.map arrCodes).map (fun xs => m.value xs / b.ln) = vars.map (fun v => m.value v.rows / b.ln) := by
        rw [List.map_map]
        refine List.map_congr_left fun v hv => ?_
        simp only [Function.comp, value_congr (arr_same h hv)]
      rw [hv]
      simp only [List.map_cons, List.map_nil, List.sum_cons, List.sum_nil, add_zero, bias_sum_div_map, value_congr hJ]
      congr 1; ring
    · rintro v (hv | hv)
      · obtain ⟨u, hu, rfl⟩ := List.mem_map.1 hv
        exact (defined_congr (arr_same h hu) m).2 (hfac hd u hu)
      · rw [List.mem_singleton.1 hv]; exact (defined_congr hJ m).2 hd
  · intro hd
    rw [e, k2]
    exact ⟨_, .inr (List.mem_singleton.2 rfl), fun h' => hd ((defined_congr hJ m).1 h')⟩

/-- conditional mutual information of a bias-corrected class -/
theorem arr_bias_cmi {c : BiasClass} {m : Method} (hm : c.Means m) {z : IArr} (hN : 0 < N) (h2 : 2 ≤ vars.length) (h : ArrAligned N vars)
    (hz : ArrAligned N [z]) {b : Base} (hb : b.Valid) :
    (m.Defined ((rows N (vars.map IArr.rows)).zip z.rows) → biasCMIArr c vars z (some 0) false b =
      .ok (((vars.map (fun v => m.value (v.rows.zip z.rows))).sum - m.value ((rows N (vars.map IArr.rows)).zip z.rows) -
        m.value z.rows) / b.ln)) ∧
    (¬ m.Defined ((rows N (vars.map IArr.rows)).zip z.rows) → biasCMIArr c vars z (some 0) false b = .error .nonFinite) := by
  have hc0 : vars ≠ [] := by rintro rfl; simp at h2
  have hzl := hz.len z (by simp)
  have hJ := arr_joint_cond h hz
  have hP : ∀ v ∈ vars, SameCounts (rowCodes (stackRows N [v, z])) (v.rows.zip z.rows) := fun v hv => arr_pair (h.pair hv hz)
  have hZ := arr_same hz (v := z) (by simp)
  obtain ⟨k1, k2⟩ := combine_val (means_est hm hb) hN (vars.map (fun v => rowCodes (stackRows N [v, z])))
    [rowCodes (stackRows N (vars ++ [z])), arrCodes z] (by simpa using hc0)
    (by intro v hv; obtain ⟨u, hu, rfl⟩ := List.mem_map.1 hv; exact arr_stack_len _)
    (by simp [arr_stack_len, arrCodes_length, hzl])
  have e : biasCMIArr c vars z (some 0) false b = combineH (c.est b) ((vars.map (fun v => rowCodes (stackRows N [v, z]))).map mkData)
      ([rowCodes (stackRows N (vars ++ [z])), arrCodes z].map mkData) := by
    simp only [biasCMIArr, arr_cmiInit h2 h hz, normCheck, means_check hm, bind, Except.bind, Bool.false_eq_true, if_false,
      genericCMIArr_run _ hN h2 h hz]
  have hfac : m.Defined ((rows N (vars.map IArr.rows)).zip z.rows) → (∀ v ∈ vars, m.Defined (v.rows.zip z.rows)) ∧ m.Defined z.rows := by
    rw [arr_rows_zip hzl]
    intro hd
    constructor
    · intro v hv
      rw [arr_zip (h.len v hv) hzl]
      refine defined_of_factor (List.range N) _ _ (fun s _ t _ hst => ?_) m hd
      rw [Prod.mk.injEq] at hst ⊢
      exact ⟨List.map_inj_left.1 hst.1 v hv, hst.2⟩
    · rw [arr_range z hzl]
      refine defined_of_factor (List.range N) _ _ (fun s _ t _ hst => ?_) m hd
      rw [Prod.mk.injEq] at hst
      exact hst.2
  constructor
  · intro hd
    rw [e, k1]
    · have hv : (vars.map (fun v => rowCodes (stackRows N [v, z]))).map (fun xs => m.value xs / b.ln) =
          vars.map (fun v => m.value (v.rows.zip z.rows) / b.ln) := by
        rw [List.map_map]
        refine List.map_congr_left fun v hv => ?_
        simp only [Function.comp, value_congr (hP v hv)]
      rw [hv]
      simp only [List.map_cons, List.map_nil, List.sum_cons, List.sum_nil, add_zero, bias_sum_div_map, value_congr hJ, value_congr hZ]
      congr 1; ring
    · rintro v (hv | hv)
      · obtain ⟨w, hw, rfl⟩ := List.mem_map.1 hv
        exact (defined_congr (hP w hw) m).2 ((hfac hd).1 w hw)
      · simp only [List.mem_cons, List.not_mem_nil, or_false] at hv
        rcases hv with rfl | rfl
        · exact (defined_congr hJ m).2 hd
        · exact (defined_congr hZ m).2 (hfac hd).2
  · intro hd
    rw [e, k2]
    exact ⟨_, .inr (List.mem_cons_self ..), fun h' => hd ((defined_congr hJ m).1 h')⟩

theorem rowCodes_ne (hN : 0 < N) (vs : List IArr) : rowCodes (stackRows N vs) ≠ [] := ne_nil_of_length hN (arr_stack_len vs)

theorem arrCodes_ne {v : IArr} (hN : 0 < N) (h : ArrAligned N vars) (hv : v ∈ vars) : arrCodes v ≠ [] :=
  ne_nil_of_length hN (by rw [arrCodes_length, h.len v hv])

/-- NSB mutual information -/
theorem arr_nsb_mi (find : Int → Int → ℝ) {K : Option Nat} (hK : ∀ k, K = some k → 0 < k) (hN : 0 < N) (h2 : 2 ≤ vars.length)
    (h : ArrAligned N vars) {b : Base} (hb : b.Valid) :
    let ok := (∀ v ∈ vars, Nsb.Defined v.rows K) ∧ Nsb.Defined (rows N (vars.map IArr.rows)) K
    (ok → nsbMIArr find (nsbArg K) vars (some 0) false b =
      .ok (((vars.map (fun v => Nsb.value v.rows K)).sum - Nsb.value (rows N (vars.map IArr.rows)) K) / b.ln)) ∧
    (¬ ok → nsbMIArr find (nsbArg K) vars (some 0) false b = .error .nonFinite) := by
  intro ok
  have hc0 : vars ≠ [] := by rintro rfl; simp at h2
  have hJ := arr_joint h
  obtain ⟨k1, k2⟩ := combine_val (.inr (nsb_glob find hK hb)) hN (vars.map arrCodes) [rowCodes (stackRows N vars)] (by simpa using hc0)
    (by intro v hv; obtain ⟨u, hu, rfl⟩ := List.mem_map.1 hv; rw [arrCodes_length, h.len u hu]) (by simp [arr_stack_len])
  have e : nsbMIArr find (nsbArg K) vars (some 0) false b = combineH (nsbH find (K.map Int.ofNat) b) ((vars.map arrCodes).map mkData)
      ([rowCodes (stackRows N vars)].map mkData) := by
    simp only [nsbMIArr, arr_miInit h2 h, normCheck, nsbCheck_ok hK, bind, Except.bind, Bool.false_eq_true, if_false,
      genericMIArr_run _ hN h2 h]
  constructor
  · rintro ⟨d1, d2⟩
    rw [e, k1]
    · have hv : (vars.map arrCodes).map (fun xs => Nsb.value xs K / b.ln) = vars.map (fun v => Nsb.value v.rows K / b.ln) := by
        rw [List.map_map]
        refine List.map_congr_left fun v hv => ?_
        simp only [Function.comp, nsb_value_congr (arr_same h hv) (arrCodes_ne hN h hv) hK]
      rw [hv]
      simp only [List.map_cons, List.map_nil, List.sum_cons, List.sum_nil, add_zero, bias_sum_div_map,
        nsb_value_congr hJ (rowCodes_ne hN _) hK]
      congr 1; ring
    · rintro v (hv | hv)
      · obtain ⟨u, hu, rfl⟩ := List.mem_map.1 hv
        exact (nsb_defined_congr (arr_same h hu) K).2 (d1 u hu)
      · rw [List.mem_singleton.1 hv]; exact (nsb_defined_congr hJ K).2 d2
  · intro hd
    rw [e, k2]
    by_contra hcon
    push Not at hcon
    exact hd ⟨fun v hv => (nsb_defined_congr (arr_same h hv) K).1 (hcon _ (.inl (List.mem_map_of_mem hv))),
      (nsb_defined_congr hJ K).1 (hcon _ (.inr (List.mem_singleton.2 rfl)))⟩

/-- NSB conditional mutual information -/
theorem arr_nsb_cmi (find : Int → Int → ℝ) {K : Option Nat} (hK : ∀ k, K = some k → 0 < k) {z : IArr} (hN : 0 < N) (h2 : 2 ≤ vars.length)
    (h : ArrAligned N vars) (hz : ArrAligned N [z]) {b : Base} (hb : b.Valid) :
    let ok := (∀ v ∈ vars, Nsb.Defined (v.rows.zip z.rows) K) ∧ Nsb.Defined ((rows N (vars.map IArr.rows)).zip z.rows) K ∧
      Nsb.Defined z.rows K
    (ok → nsbCMIArr find (nsbArg K) vars z (some 0) false b =
      .ok (((vars.map (fun v => Nsb.value (v.rows.zip z.rows) K)).sum - Nsb.value ((rows N (vars.map IArr.rows)).zip z.rows) K -
        Nsb.value z.rows K) / b.ln)) ∧
    (¬ ok → nsbCMIArr find (nsbArg K) vars z (some 0) false b = .error .nonFinite) := by
  intro ok
  have hc0 : vars ≠ [] := by rintro rfl; simp at h2
  have hzl := hz.len z (by simp)
  have hJ := arr_joint_cond h hz
  have hP : ∀ v ∈ vars, SameCounts (rowCodes (stackRows N [v, z])) (v.rows.zip z.rows) := fun v hv => arr_pair (h.pair hv hz)
  have hZ := arr_same hz (v := z) (by simp)
  obtain ⟨k1, k2⟩ := combine_val (.inr (nsb_glob find hK hb)) hN (vars.map (fun v => rowCodes (stackRows N [v, z])))
    [rowCodes (stackRows N (vars ++ [z])), arrCodes z] (by simpa using hc0)
    (by intro v hv; obtain ⟨u, hu, rfl⟩ := List.mem_map.1 hv; exact arr_stack_len _)
    (by simp [arr_stack_len, arrCodes_length, hzl])
  have e : nsbCMIArr find (nsbArg K) vars z (some 0) false b = combineH (nsbH find (K.map Int.ofNat) b)
      ((vars.map (fun v => rowCodes (stackRows N [v, z]))).map mkData) ([rowCodes (stackRows N (vars ++ [z])), arrCodes z].map mkData) := by
    simp only [nsbCMIArr, arr_cmiInit h2 h hz, normCheck, nsbCheck_ok hK, bind, Except.bind, Bool.false_eq_true, if_false,
      genericCMIArr_run _ hN h2 h hz]
  constructor
  · rintro ⟨d1, d2, d3⟩
    rw [e, k1]
    · have hv : (vars.map (fun v => rowCodes (stackRows N [v, z]))).map (fun xs => Nsb.value xs K / b.ln) =
          vars.map (fun v => Nsb.value (v.rows.zip z.rows) K / b.ln) := by
        rw [List.map_map]
        refine List.map_congr_left fun v hv => ?_
        simp only [Function.comp, nsb_value_congr (hP v hv) (rowCodes_ne hN _) hK]
      rw [hv]
      simp only [List.map_cons, List.map_nil, List.sum_cons, List.sum_nil, add_zero, bias_sum_div_map,
        nsb_value_congr hJ (rowCodes_ne hN _) hK, nsb_value_congr hZ (arrCodes_ne hN hz (List.mem_singleton.2 rfl)) hK]
      congr 1; ring
    · rintro v (hv | hv)
      · obtain ⟨w, hw, rfl⟩ := List.mem_map.1 hv
        exact (nsb_defined_congr (hP w hw) K).2 (d1 w hw)
      · simp only [List.mem_cons, List.not_mem_nil, or_false] at hv
        rcases hv with rfl | rfl
        · exact (nsb_defined_congr hJ K).2 d2
        · exact (nsb_defined_congr hZ K).2 d3
  · intro hd
    rw [e, k2]
    by_contra hcon
    push Not at hcon
    exact hd ⟨fun v hv => (nsb_defined_congr (hP v hv) K).1 (hcon _ (.inl (List.mem_map_of_mem hv))),
      (nsb_defined_congr hJ K).1 (hcon _ (.inr (by simp))), (nsb_defined_congr hZ K).1 (hcon _ (.inr (by simp)))⟩

end Verif
