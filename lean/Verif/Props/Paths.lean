import Verif.Lemmas.Generic
import Verif.Props.CMI

/-! # Properties C18, C53 : agreement of the mutual-information code paths -/

namespace Verif

open Spec

theorem pluginH_consistent {b : Base} (hb : b.Valid) : (pluginH b).Consistent := by
  intro xs hx
  have hl : (xs.length : ℝ) ≠ 0 := by
    have := List.length_pos_iff.2 hx
    positivity
  refine ⟨_, _, discreteSimple_ok hb, discreteLocal_ok hb, by simp, ?_⟩
  rw [Spec.mean, entropy_eq_mean, sum_map_neg', sum_map_div', List.length_map, Spec.mean,
    List.length_map, sum_map_neg']
  ring

/-- the data object of a valid argument of the generic combination is the summary of a sample -/
theorem HEst.combine {est : HEst} (h : est.Consistent ∨ est.GlobalOnly) {N : Nat} (hN : 0 < N)
    (plus minus : List (List Int)) (hp : plus ≠ []) (hpl : ∀ c ∈ plus, c.length = N)
    (hml : ∀ c ∈ minus, c.length = N) :
    ∃ gs ms, (plus.map mkData).mapM est.globalVal = .ok gs ∧
      (minus.map mkData).mapM est.globalVal = .ok ms ∧
      combineH est (plus.map mkData) (minus.map mkData) = .ok (gs.sum - ms.sum) := by
  classical
  have hne : ∀ c, c ∈ plus ∨ c ∈ minus → c ≠ [] := by
    rintro c hc rfl
    have : ([] : List Int).length = N := hc.elim (hpl _) (hml _)
    simp at this; omega
  rcases h with h | h
  · choose! g l h1 h2 h3 h4 using h
    let G : DiscreteData Int → ℝ := fun d => g (d.data.getD [])
    let L : DiscreteData Int → List ℝ := fun d => l (d.data.getD [])
    refine ⟨(plus.map mkData).map G, (minus.map mkData).map G, mapM_ok _ ?_, mapM_ok _ ?_, ?_⟩
    · intro d hd
      obtain ⟨c, hc, rfl⟩ := List.mem_map.1 hd
      exact h1 c (hne c (Or.inl hc))
    · intro d hd
      obtain ⟨c, hc, rfl⟩ := List.mem_map.1 hd
      exact h1 c (hne c (Or.inr hc))
    · refine combineH_ok est hN _ _ (by simpa using hp) L G ?_
      intro d hd
      obtain ⟨c, hc, rfl⟩ : ∃ c, (c ∈ plus ∨ c ∈ minus) ∧ mkData c = d := by
        rcases hd with hd | hd <;> obtain ⟨c, hc, e⟩ := List.mem_map.1 hd
        · exact ⟨c, Or.inl hc, e⟩
        · exact ⟨c, Or.inr hc, e⟩
      refine ⟨h2 c (hne c hc), ?_, h4 c (hne c hc)⟩
      show (l c).length = N
      rw [h3 c (hne c hc)]
      exact hc.elim (hpl _) (hml _)
  · choose! g h1 h2 using h
    let G : DiscreteData Int → ℝ := fun d => g (d.data.getD [])
    refine ⟨(plus.map mkData).map G, (minus.map mkData).map G, mapM_ok _ ?_, mapM_ok _ ?_, ?_⟩
    · intro d hd
      obtain ⟨c, hc, rfl⟩ := List.mem_map.1 hd
      exact h1 c (hne c (Or.inl hc))
    · intro d hd
      obtain ⟨c, hc, rfl⟩ := List.mem_map.1 hd
      exact h1 c (hne c (Or.inr hc))
    · refine combineH_fallback est _ _ (by simpa using hp) G ?_ ?_
      · rintro d (hd | hd) <;> obtain ⟨c, hc, rfl⟩ := List.mem_map.1 hd
        · exact h1 c (hne c (Or.inl hc))
        · exact h1 c (hne c (Or.inr hc))
      · intro d hd
        obtain ⟨c, hc, rfl⟩ := List.mem_map.1 hd
        exact h2 c (hne c (Or.inl hc))

theorem mapM_entropy_arr1 (est : HEst) (cols : List (List Int)) (hne : ∀ c ∈ cols, c ≠ []) :
    cols.mapM (fun c => est.entropy (.arr1 c)) = (cols.map mkData).mapM est.globalVal := by
  induction cols with
  | nil => rfl
  | cons c cs ih =>
    rw [List.mapM_cons, List.map_cons, List.mapM_cons, ih (fun d hd => hne d (by simp [hd]))]
    simp only [HEst.entropy, hConstruct_arr1 (hne c (by simp)), bind, Except.bind]

theorem mapM_hConstruct (cols : List (List Int)) (hne : ∀ c ∈ cols, c ≠ []) :
    cols.mapM (fun v => hConstruct (.arr1 v)) = .ok (cols.map mkData) :=
  mapM_ok _ fun c hc => hConstruct_arr1 (hne c hc)

/-- **C53** The mutual information of an estimator that works by combining entropies is
`Σ H(X_i) − H(X_1,…,X_n)` of exactly the entropies that estimator itself returns, provided its local
values average to its global value or it has no local values. -/
theorem C53_generic_mi_is_entropy_combination (est : HEst) (h : est.Consistent ∨ est.GlobalOnly)
    (cols : List (List Int)) (N : Nat) (hN : 0 < N) (h2 : 2 ≤ cols.length)
    (hl : ∀ c ∈ cols, c.length = N) :
    ∃ hs hj, cols.mapM (fun c => est.entropy (.arr1 c)) = .ok hs ∧
      est.entropy (.tup cols) = .ok hj ∧
      genericMI est cols (some 0) = .ok (hs.sum - hj) := by
  have hne : ∀ c ∈ cols, c ≠ [] := by
    rintro c hc rfl
    have := hl _ hc
    simp at this; omega
  have hc0 : cols ≠ [] := by rintro rfl; simp at h2
  obtain ⟨gs, ms, e1, e2, e3⟩ := HEst.combine h hN cols [jointCodes N cols] hc0 hl
    (by simp [jointCodes_length])
  simp only [List.map_cons, List.map_nil, List.mapM_cons, List.mapM_nil] at e2 e3
  cases hj : est.globalVal (mkData (jointCodes N cols)) with
  | error e => rw [hj] at e2; simp [bind, Except.bind] at e2
  | ok v =>
    rw [hj] at e2
    simp only [bind, Except.bind, pure, Except.pure, Except.ok.injEq] at e2
    refine ⟨gs, v, ?_, ?_, ?_⟩
    · rw [mapM_entropy_arr1 est cols hne, e1]
    · simp only [HEst.entropy, hConstruct_tup hN hc0 hl, bind, Except.bind, hj]
    · simp only [genericMI, miInit_ok h2 hl, bind, Except.bind, mapM_hConstruct cols hne,
        hConstruct_tup hN hc0 hl, e3, ← e2, List.sum_cons, List.sum_nil, add_zero]

example := C53_generic_mi_is_entropy_combination (pluginH (.num 2)) (.inl (pluginH_consistent (by norm_num [Base.Valid])))
  [[0, 1, 1, 0], [1, 1, 0, 0], [0, 0, 0, 1]] 4 (by decide) (by decide) (by decide)

/-- **C53** the same for conditional mutual information:
`Σ H(X_i, Z) − H(X_1,…,X_n,Z) − H(Z)`. -/
theorem C53_generic_cmi_is_entropy_combination (est : HEst) (h : est.Consistent ∨ est.GlobalOnly)
    (cols : List (List Int)) (z : List Int) (hN : 0 < z.length) (h2 : 2 ≤ cols.length)
    (hl : ∀ c ∈ cols, c.length = z.length) :
    ∃ hs hj hz, cols.mapM (fun c => est.entropy (.tup [c, z])) = .ok hs ∧
      est.entropy (.tup (cols ++ [z])) = .ok hj ∧ est.entropy (.arr1 z) = .ok hz ∧
      genericCMI est cols z (some 0) = .ok (hs.sum - hj - hz) := by
  have hc0 : cols ≠ [] := by rintro rfl; simp at h2
  have hzne : z ≠ [] := List.length_pos_iff.1 hN
  have hp : ∀ c ∈ cols, hConstruct (.tup [c, z]) = .ok (mkData (jointCodes z.length [c, z])) :=
    fun c hc => hConstruct_tup hN (by simp) (by simp [hl c hc])
  have hj' : hConstruct (.tup (cols ++ [z])) = .ok (mkData (jointCodes z.length (cols ++ [z]))) := by
    refine hConstruct_tup hN (by simp) ?_
    intro c hc
    rcases List.mem_append.1 hc with hc | hc
    · exact hl c hc
    · rw [List.mem_singleton.1 hc]
  obtain ⟨gs, ms, e1, e2, e3⟩ := HEst.combine h hN (cols.map (fun c => jointCodes z.length [c, z]))
    [jointCodes z.length (cols ++ [z]), z] (by simpa using hc0)
    (by intro c hc; obtain ⟨d, _, rfl⟩ := List.mem_map.1 hc; exact jointCodes_length _ _)
    (by simp [jointCodes_length])
  simp only [List.map_cons, List.map_nil, List.mapM_cons, List.mapM_nil] at e2 e3
  cases hj : est.globalVal (mkData (jointCodes z.length (cols ++ [z]))) with
  | error e => rw [hj] at e2; simp [bind, Except.bind] at e2
  | ok v =>
    cases hv : est.globalVal (mkData z) with
    | error e => rw [hj, hv] at e2; simp [bind, Except.bind] at e2
    | ok w =>
      rw [hj, hv] at e2
      simp only [bind, Except.bind, pure, Except.pure, Except.ok.injEq] at e2
      refine ⟨gs, v, w, ?_, ?_, ?_, ?_⟩
      · rw [← e1]
        clear e1 e2 e3 hj' h2 hc0 hj
        induction cols with
        | nil => rfl
        | cons c cs ih =>
          simp only [List.mapM_cons, List.map_cons]
          rw [ih (fun d hd => hl d (by simp [hd])) (fun d hd => hp d (by simp [hd]))]
          simp only [HEst.entropy, hp c (by simp), bind, Except.bind]
      · simp only [HEst.entropy, hj', bind, Except.bind, hj]
      · simp only [HEst.entropy, hConstruct_arr1 hzne, bind, Except.bind, hv]
      · have hm : cols.mapM (fun c => hConstruct (.tup [c, z])) =
            .ok ((cols.map (fun c => jointCodes z.length [c, z])).map mkData) := by
          rw [List.map_map]
          exact mapM_ok _ hp
        have hi : cmiInit cols (some z) (some 0) = .ok (cols, z) := cmiInit_ok h2 hl (Or.inl rfl)
        simp only [genericCMI, hi, bind, Except.bind, hm, hj', hConstruct_arr1 hzne, e3,
          ← e2, List.sum_cons, List.sum_nil, add_zero]
        rw [sub_sub]

example : (pluginH (.num 2)).Consistent ∧ (2 ≤ [[0, 1, 1], [1, 0, 1]].length) ∧
    (∀ c ∈ ([[0, 1, 1], [1, 0, 1]] : List (List Int)), c.length = 3) :=
  ⟨pluginH_consistent (by simp [Base.Valid]), by decide, by decide⟩

theorem entropy_jointCodes (n : Nat) (cols : List (List Int)) :
    entropy (jointCodes n cols) = entropy (Spec.rows n cols) := entropy_inverse _

theorem genericMI_plugin (cols : List (List Int)) (N : Nat) (hN : 0 < N) (h2 : 2 ≤ cols.length)
    (hl : ∀ c ∈ cols, c.length = N) (b : Base) (hb : b.Valid) :
    genericMI (pluginH b) cols (some 0) = .ok (Spec.totalCorrelation N cols / b.ln) := by
  obtain ⟨hs, hj, e1, e2, e3⟩ := C53_generic_mi_is_entropy_combination (pluginH b)
    (Or.inl (pluginH_consistent hb)) cols N hN h2 hl
  have hne : ∀ c ∈ cols, c ≠ [] := by
    rintro c hc rfl
    have := hl _ hc
    simp at this; omega
  have hc0 : cols ≠ [] := by rintro rfl; simp at h2
  have h1 : cols.mapM (fun c => (pluginH b).entropy (.arr1 c)) =
      .ok (cols.map (fun c => entropy c / b.ln)) :=
    mapM_ok _ fun c hc => by
      simp only [HEst.entropy, hConstruct_arr1 (hne c hc), bind, Except.bind, pluginH,
        discreteSimple_ok hb]
  have h3 : (pluginH b).entropy (.tup cols) = .ok (entropy (Spec.rows N cols) / b.ln) := by
    simp only [HEst.entropy, hConstruct_tup hN hc0 hl, bind, Except.bind, pluginH,
        discreteSimple_ok hb, entropy_jointCodes]
  rw [h1, Except.ok.injEq] at e1
  rw [h3, Except.ok.injEq] at e2
  rw [e3, ← e1, ← e2, sum_map_div', Spec.totalCorrelation, sub_div]

/-- **C18** The generic entropy combination with the plug-in estimator returns the same value as the
discrete mutual-information estimator (contingency-table or sparse n-dimensional path), for `n ≥ 2`
non-constant variables with `N^n < 2^64`. -/
theorem C18_generic_eq_discrete (cols : List (List Int)) (N : Nat) (hN : 0 < N)
    (h2 : 2 ≤ cols.length) (hl : ∀ c ∈ cols, c.length = N)
    (hc : ∀ c ∈ cols, ¬ ∀ x ∈ c, ∀ y ∈ c, x = y) (hov : N ^ cols.length < 2 ^ 64)
    (b : Base) (hb : b.Std) :
    genericMI (pluginH b) cols (some 0) = discreteMI (.all1D cols) (some 0) b := by
  rw [genericMI_plugin cols N hN h2 hl b hb.valid,
    C13_mi_is_total_correlation cols N hN h2 hl hc hov b hb]

example := C18_generic_eq_discrete [[0, 1, 1, 0], [1, 1, 0, 0], [0, 0, 0, 1]] 4 (by decide) (by decide) (by decide) (by decide) (by norm_num) (.num 2) (by norm_num [Base.Std])

theorem tc_singletons' (cols : List (List Int)) (N : Nat)
    (hl : ∀ c ∈ cols, c.length = N) :
    Spec.totalCorrelation N (cols.map (fun c => c.map (fun x => [x]))) =
      Spec.totalCorrelation N cols := by
  unfold Spec.totalCorrelation
  congr 1
  · rw [List.map_map]
    congr 1
    refine List.map_congr_left fun c _ => ?_
    have := entropy_map_congr c (fun x => [x]) (fun x => x) (by simp)
    simpa using this
  · unfold Spec.rows
    refine entropy_map_congr _ _ _ ?_
    intro s hs t ht
    simp only [List.mem_range] at hs ht
    simp only [Spec.row, List.map_map]
    rw [List.map_inj_left, List.map_inj_left]
    refine forall₂_congr fun c hc => ?_
    have h1 : s < c.length := by rw [hl c hc]; exact hs
    have h2 : t < c.length := by rw [hl c hc]; exact ht
    simp [Function.comp, h1, h2]

theorem tc_singletons {D : DecidableEq (List Int)} (cols : List (List Int)) (N : Nat)
    (hl : ∀ c ∈ cols, c.length = N) :
    @Spec.totalCorrelation _ D _ N (cols.map (fun c => c.map (fun x => [x]))) =
      Spec.totalCorrelation N cols := by
  have e : D = instDecidableEqList := Subsingleton.elim _ _
  rw [e]
  exact tc_singletons' cols N hl

/-- **C18** The `Counter` implementation (variables given as two-dimensional arrays with one column)
returns the same value as the implementations for one-dimensional arrays, for `n ≥ 2` non-constant
variables with `N^n < 2^64`. -/
theorem C18_counter_eq_discrete (cols : List (List Int)) (N : Nat) (hN : 0 < N)
    (h2 : 2 ≤ cols.length) (hl : ∀ c ∈ cols, c.length = N)
    (hc : ∀ c ∈ cols, ¬ ∀ x ∈ c, ∀ y ∈ c, x = y) (hov : N ^ cols.length < 2 ^ 64)
    (b : Base) (hb : b.Std) :
    discreteMI (.all2D (cols.map (fun c => c.map (fun x => [x])))) (some 0) b =
      discreteMI (.all1D cols) (some 0) b := by
  have hl' : ∀ c ∈ cols.map (fun c => c.map (fun x => [x])), c.length = N := by
    intro c hcm
    obtain ⟨d, hd, rfl⟩ := List.mem_map.1 hcm
    simp [hl d hd]
  have hne : cols.map (fun c => c.map (fun x => [x])) ≠ [] := by
    intro h0
    rw [List.map_eq_nil_iff] at h0
    subst h0; simp at h2
  rw [C13_mi_is_total_correlation cols N hN h2 hl hc hov b hb]
  simp only [discreteMI, miInit_ok (data := cols.map (fun c => c.map (fun x => [x]))) (by simpa using h2) hl',
    bind, Except.bind, miGlobal, miNdOther_ok _ N hN hne hl' hb.valid]
  simp [addCorr, tc_singletons cols N hl]

example := C18_counter_eq_discrete [[0, 1, 1, 0], [1, 1, 0, 0], [0, 0, 0, 1]] 4 (by decide) (by decide) (by decide) (by decide) (by norm_num) (.num 2) (by norm_num [Base.Std])

/-- **C18** The sparse n-dimensional implementation applied to two variables returns what the
contingency-table implementation returns (non-constant variables, fewer than 2³² samples). -/
theorem C18_sparse_eq_contingency (xs ys : List Int) (h : xs.length = ys.length)
    (hx : ¬ ∀ a ∈ xs, ∀ c ∈ xs, a = c) (hy : ¬ ∀ a ∈ ys, ∀ c ∈ ys, a = c)
    (hov : xs.length < 2 ^ 32) (b : Base) (hb : b.Std) :
    miNdInt (logBase b) [xs, ys] none = mi2dInt (logBase b) xs ys none := by
  have hne : xs ≠ [] := by rintro rfl; simp at hx
  have hov2 : xs.length ^ 2 < 2 ^ 64 := by
    have : xs.length ^ 2 < (2 ^ 32) ^ 2 := Nat.pow_lt_pow_left hov (by norm_num)
    simpa [← pow_mul] using this
  have hl : ∀ c ∈ [xs, ys], c.length = xs.length := by simp [h]
  rw [mi2dInt_std xs ys h hne hov2 hb, miNdInt_ok [xs, ys] xs.length (List.length_pos_iff.2 hne)
    (by simp) hl (by
      intro c hc
      simp only [List.mem_cons, List.not_mem_nil, or_false] at hc
      rcases hc with rfl | rfl
      · exact unique_ne_one hx
      · exact unique_ne_one hy) (fun t _ => prod_cnt_lt hl (by simpa using hov2) t) hb.valid,
    tc_pair xs ys h]
  simp [addCorr]

example : ∃ xs ys : List Int, xs.length = ys.length ∧ xs.length < 2 ^ 32 ∧
    (¬ ∀ a ∈ xs, ∀ c ∈ xs, a = c) ∧ (¬ ∀ a ∈ ys, ∀ c ∈ ys, a = c) :=
  ⟨[0, 1, 1], [2, 2, 5], by decide, by decide, by decide, by decide⟩

/-- **C18** (limit) the non-constancy hypothesis cannot be dropped for three or more variables: on the
same data the one-dimensional path returns 0 and the `Counter` path and the entropy combination
return `log 2`. -/
theorem C18_constant_variable_paths_disagree :
    ∃ cols : List (List Int), (∀ c ∈ cols, c.length = 2) ∧
      discreteMI (.all1D cols) (some 0) .e = .ok 0 ∧
      discreteMI (.all2D (cols.map (fun c => c.map (fun x => [x])))) (some 0) .e = .ok (Real.log 2) ∧
      genericMI (pluginH .e) cols (some 0) = .ok (Real.log 2) := by
  have e1 : entropy ([0, 1] : List Int) = Real.log 2 := by
    rw [(entropy_eq_log_card_iff ([0, 1] : List Int) (by simp)).2 (by decide)]
    norm_num
  have e2 : entropy ([7, 7] : List Int) = 0 := (entropy_eq_zero_iff _).2 (by decide)
  have e3 : entropy (Spec.rows 2 ([[0, 1], [0, 1], [7, 7]] : List (List Int))) = Real.log 2 := by
    have : Spec.rows 2 ([[0, 1], [0, 1], [7, 7]] : List (List Int)) = [[0, 0, 7], [1, 1, 7]] := by decide
    rw [this, (entropy_eq_log_card_iff ([[0, 0, 7], [1, 1, 7]] : List (List Int)) (by simp)).2 (by decide)]
    norm_num
  have htc : Spec.totalCorrelation 2 ([[0, 1], [0, 1], [7, 7]] : List (List Int)) = Real.log 2 := by
    rw [Spec.totalCorrelation, e3]
    simp [e1, e2]
  refine ⟨[[0, 1], [0, 1], [7, 7]], by decide,
    C13_constant_variable_returns_zero _ 2 (by norm_num) (by decide) (by decide)
      ⟨[7, 7], by decide, by decide⟩ _, ?_, ?_⟩
  · simp only [discreteMI, miInit_ok (data := ([[0, 1], [0, 1], [7, 7]] : List (List Int)).map
      (fun c => c.map (fun x => [x]))) (N := 2) (by decide) (by decide), bind, Except.bind, miGlobal]
    rw [miNdOther_ok _ 2 (by norm_num) (by simp) (by decide) (b := .e) trivial,
      tc_singletons _ 2 (by decide), htc]
    simp [addCorr, Base.ln]
  · rw [genericMI_plugin _ 2 (by norm_num) (by decide) (by decide) .e trivial, htc]
    simp [Base.ln]

end Verif
