import Verif.Props.TE2

/-! # Properties C20 (step), C24 (local values, conditional), C25 (offset) -/

namespace Verif

open Spec

/-! ## Local transfer entropy -/

theorem cmi_local_mean {α γ : Type} [LinearOrder α] [LinearOrder γ] [Inhabited α] [Inhabited γ]
    (data : List (List α)) (z : List γ) (hN : 0 < z.length)
    (h2 : 2 ≤ data.length) (hl : ∀ c ∈ data, c.length = z.length)
    (hov : z.length ^ data.length < 2 ^ 64) {b : Base} (hb : b.Valid) (mm : Bool) :
    ∃ g ls, cmiNdInt (logBase b) data z (if mm then some b else none) = .ok g ∧
      cmiLocal (logBase b) data z (if mm then some b else none) = .ok ls ∧ ls.length = z.length ∧
      Spec.mean ls = g := by
  have hne : data ≠ [] := by rintro rfl; simp at h2
  have hN' : (0:ℝ) < z.length := by exact_mod_cast hN
  by_cases hc : ∃ c ∈ data, (npUnique c).length * (npUnique z).length = 1
  · obtain ⟨c, hcm, hc⟩ := hc
    exact ⟨0, List.replicate z.length 0, cmiNdInt_const hcm hc _ _, cmiLocal_const hl hcm hc _ _,
      by simp, by simp [Spec.mean]⟩
  · push Not at hc
    obtain ⟨corr, hcorr⟩ : ∃ corr, ∀ v, addCorr (if mm then some b else none)
        (fun base => millerMadowCorr (data.map (fun c => (c.zip z).toFinset.card))
          ((Spec.rows z.length data).zip z).toFinset.card z.length base (some (npUnique z).length)) v =
            .ok (v + corr) :=
      ⟨_, fun v => addCorr_ok _ (mmFlag_valid hb mm) _ _ _ _ v hN.ne'⟩
    refine ⟨condInter z.length data z / b.ln + corr, _, ?_,
      cmiLocal_ok data z z.length hN hne hl rfl hc hb _ corr hcorr, by simp, ?_⟩
    · rw [cmiNdInt_ok data z z.length hN hne hl rfl hc hov (pow_bound hN h2 hov) hb]
      exact hcorr _
    · rw [Spec.mean, List.length_map, List.length_range, sum_map_add', sum_map_div',
        condInter_eq_mean data z z.length hN hl rfl]
      simp only [List.map_const', List.length_range, List.sum_replicate, nsmul_eq_mul]
      field_simp

theorem numRows_le (n m s : Nat) (hs : 0 < s) : numRows n m s ≤ n := by
  unfold numRows
  rw [Nat.div_le_iff_le_mul_add_pred hs]
  have := Nat.mul_le_mul_right n hs
  omega

/-- **C24** Local transfer-entropy values: one per row of the embedding, averaging to the global value
(plain and Miller–Madow, with or without permuted or resampled source). -/
theorem C24_local_te_mean (source dest : List Int) (l k s : Nat) (hs : 0 < s) (hl : 0 < l) (hk : 0 < k)
    (hm : max k l * s < source.length) (hlen : source.length = dest.length) (hov : dest.length < 2 ^ 32)
    (b : Base) (hb : b.Valid) (mm : Bool) (rnd : SrcRandom) (hr : rnd.Lawful) :
    ∃ g ls, discreteTE source dest (teParams l k s) (some (.int 0)) none b mm rnd = .ok g ∧
      discreteTELocal source dest (teParams l k s) (some (.int 0)) none b mm rnd = .ok ls ∧
      ls.length = numRows dest.length (max k l) s ∧ Spec.mean ls = g := by
  have hm' : max k l * s < dest.length := hlen ▸ hm
  have h := teObservations_ok source dest l k s hs hl hk hm hlen hr
  have hR := numRows_pos hs hm'
  have hRl := lt_of_le_of_lt (numRows_le dest.length (max k l) s hs) hov
  set R := numRows dest.length (max k l) s with hRe
  have hov' : R ^ 2 < 2 ^ 64 := by
    have : R ^ 2 < (2 ^ 32) ^ 2 := Nat.pow_lt_pow_left hRl (by norm_num)
    simpa [← pow_mul] using this
  have hzl : (rowCodes (histRows dest dest.length (max k l) s k)).length = R := by
    simp [rowCodes_length, histRows, hRe]
  obtain ⟨g, ls, e1, e2, e3, e4⟩ := cmi_local_mean
    [futRows dest dest.length (max k l) s, (srcSel rnd R).map (histRow source (max k l) s l)]
    (rowCodes (histRows dest dest.length (max k l) s k)) (by omega) (by simp)
    (by simp [futRows, srcSel_length hr, hzl, ← hRe]) (by simpa [hzl] using hov') hb mm
  refine ⟨g, ls, ?_, ?_, by omega, e4⟩
  · rw [← e1]
    simp only [discreteTE, teInit_zero hlen, bind, Except.bind, teParams, h, combinedTE, reduceJointSpace, rowCodes]
  · rw [← e2]
    simp only [discreteTELocal, teInit_zero hlen, bind, Except.bind, teParams, h, combinedTELocal, reduceJointSpace,
      rowCodes]

example := C24_local_te_mean [1, 0, 1, 1, 0] [0, 1, 0, 1, 1] 2 1 1 (by decide) (by decide) (by decide) (by decide) rfl (by decide) (.num 2) (by norm_num [Base.Valid]) true {} lawful_none

/-! ## Conditional transfer entropy -/

section CTE

variable (source dest cond : List Int) (l k c s : Nat)

theorem cteInit_zero {α : Type} {source dest cond : List α} (hlen : source.length = dest.length)
    (hlen2 : cond.length = dest.length) :
    cteInit source dest (some cond) (some (.int 0)) none = .ok (source, dest, cond) := by
  simp [cteInit, hlen, hlen2]

theorem cte_value (hs : 0 < s) (hl : 0 < l) (hk : 0 < k) (hc : 0 < c)
    (hm : max (max k l) c * s < source.length)
    (hlen : source.length = dest.length) (hlen2 : cond.length = dest.length) (hov : dest.length < 2 ^ 32)
    {b : Base} (hb : b.Valid) (mm : Bool) :
    ∃ (f g d e : Nat → List Int) (R : Nat), 0 < R ∧ (∀ i, (f i).length = 1) ∧ (∀ i, (g i).length = l) ∧
      (∀ i, (d i).length = k) ∧ (∀ i, (e i).length = c) ∧
      (List.range R).map f = futRows dest dest.length (max (max k l) c) s ∧
      (List.range R).map g = histRows source dest.length (max (max k l) c) s l ∧
      (List.range R).map d = histRows dest dest.length (max (max k l) c) s k ∧
      (List.range R).map e = histRows cond dest.length (max (max k l) c) s c ∧
      cteObservations source dest cond (.int l) (.int k) (.int c) (.int s) =
        .ok { src := (List.range R).map g, dest := (List.range R).map d, fut := (List.range R).map f,
              cond := some ((List.range R).map e) } ∧
      discreteCTE source dest (some cond) (teParams l k s) (.int c) (some (.int 0)) none b mm =
      .ok ((hSpec mm ((List.range R).map (fun i => (f i, d i ++ e i))) +
        hSpec mm ((List.range R).map (fun i => (g i, d i ++ e i))) -
        hSpec mm ((List.range R).map (fun i => (f i, g i, d i ++ e i))) -
        hSpec mm ((List.range R).map (fun i => d i ++ e i))) / b.ln) := by
  have hm' : max (max k l) c * s < dest.length := hlen ▸ hm
  have h := cteObservations_ok source dest cond l k c s hs hl hk hc hm hlen hlen2 lawful_none
  rw [srcSel_none, histRows, histRows, futRows] at h
  have hR := lt_of_le_of_lt (numRows_le dest.length (max (max k l) c) s hs) hov
  refine ⟨_, _, _, _, _, numRows_pos hs hm', by simp, by simp [histRow], by simp [histRow], by simp [histRow],
    rfl, rfl, rfl, rfl, h, ?_⟩
  simp only [discreteCTE, cteInit_zero hlen hlen2, bind, Except.bind, teParams, h, combinedTE_cond]
  exact cmiNdInt_codes _ (numRows_pos hs hm') hR _ _ _ hb mm

/-- **C24** Conditional transfer entropy is `I(future; source history | destination and condition
history)` of the embedding, and non-negative. -/
theorem C24_cte_is_textbook (hs : 0 < s) (hl : 0 < l) (hk : 0 < k) (hc : 0 < c)
    (hm : max (max k l) c * s < source.length)
    (hlen : source.length = dest.length) (hlen2 : cond.length = dest.length) (hov : dest.length < 2 ^ 32)
    (b : Base) (hb : b.Std) :
    let n := dest.length
    let m := max (max k l) c
    ∃ t, discreteCTE source dest (some cond) (teParams l k s) (.int c) (some (.int 0)) none b = .ok t ∧
      t = Spec.cmi (futRows dest n m s) (histRows source n m s l)
        ((histRows dest n m s k).zip (histRows cond n m s c)) / b.ln ∧ 0 ≤ t := by
  intro n m
  obtain ⟨f, g, d, e, R, hR, hf, hg, hd, he, ef, eg, ed, ee, hsl, h⟩ :=
    cte_value source dest cond l k c s hs hl hk hc hm hlen hlen2 hov hb.valid false
  have hcmi : Spec.cmi (futRows dest n m s) (histRows source n m s l)
        ((histRows dest n m s k).zip (histRows cond n m s c)) =
      entropy ((List.range R).map (fun i => (f i, d i ++ e i))) +
      entropy ((List.range R).map (fun i => (g i, d i ++ e i))) -
      entropy ((List.range R).map (fun i => (f i, g i, d i ++ e i))) -
      entropy ((List.range R).map (fun i => d i ++ e i)) := by
    rw [← ef, ← eg, ← ed, ← ee, zip_map_map, cmi_eq_entropies _ _ _ (by simp) (by simp)]
    simp only [zip_map_map]
    rw [entropy_map_congr (List.range R) (fun i => (f i, d i ++ e i)) (fun i => (f i, d i, e i))
        (fun u _ v _ => by simp only [Prod.mk.injEq]; rw [append_eq_iff (by rw [hd, hd])]),
      entropy_map_congr (List.range R) (fun i => (g i, d i ++ e i)) (fun i => (g i, d i, e i))
        (fun u _ v _ => by simp only [Prod.mk.injEq]; rw [append_eq_iff (by rw [hd, hd])]),
      entropy_map_congr (List.range R) (fun i => (f i, g i, d i ++ e i)) (fun i => (f i, g i, d i, e i))
        (fun u _ v _ => by simp only [Prod.mk.injEq]; rw [append_eq_iff (by rw [hd, hd])]),
      entropy_map_congr (List.range R) (fun i => d i ++ e i) (fun i => (d i, e i))
        (fun u _ v _ => by simp only [Prod.mk.injEq]; rw [append_eq_iff (by rw [hd, hd])])]
  refine ⟨_, h, ?_, ?_⟩
  · rw [hcmi]; simp only [hSpec, Bool.false_eq_true, if_false]
  · refine div_nonneg ?_ hb.ln_pos.le
    simp only [hSpec, Bool.false_eq_true, if_false]
    rw [← cmi_rows R f g (fun i => d i ++ e i)]
    exact cmi_nonneg _ _ _ (by simp) (by simp)

example := C24_cte_is_textbook [1, 0, 1, 1, 0] [0, 1, 0, 1, 1] [0, 0, 1, 1, 0] 2 1 1 1 (by decide) (by decide) (by decide) (by decide) (by decide) rfl rfl (by decide) (.num 2) (by norm_num [Base.Std])

theorem cte_combination (hs : 0 < s) (hl : 0 < l) (hk : 0 < k) (hc : 0 < c)
    (hm : max (max k l) c * s < source.length)
    (hlen : source.length = dest.length) (hlen2 : cond.length = dest.length) (hov : dest.length < 2 ^ 32)
    {b : Base} (hb : b.Valid) (mm : Bool) :
    ∃ sl sp h2 h1 hj hd,
      cteObservations source dest cond (.int l) (.int k) (.int c) (.int s) = .ok sl ∧
      constructJointSpaces sl = .ok sp ∧
      (hFamily b mm).entropy (.arr2 sp.marginal2) = .ok h2 ∧
      (hFamily b mm).entropy (.arr2 sp.marginal1) = .ok h1 ∧
      (hFamily b mm).entropy (.arr2 sp.joint) = .ok hj ∧
      (hFamily b mm).entropy (.arr2 sp.destPast) = .ok hd ∧
      discreteCTE source dest (some cond) (teParams l k s) (.int c) (some (.int 0)) none b mm =
        .ok (h2 + h1 - hj - hd) := by
  obtain ⟨f, g, d, e, R, hR, hf, hg, hd, he, _, _, _, _, hsl, h⟩ :=
    cte_value source dest cond l k c s hs hl hk hc hm hlen hlen2 hov hb mm
  have hne : ∀ q : Nat → List Int, (List.range R).map q ≠ [] := fun q => by simp; omega
  refine ⟨_, _, _, _, _, _, hsl, cteSpaces_ok R f g d e, hFamily_entropy_arr2 hb mm (hne _),
    hFamily_entropy_arr2 hb mm (hne _), hFamily_entropy_arr2 hb mm (hne _), hFamily_entropy_arr2 hb mm (hne _), ?_⟩
  rw [h, ← add_div, ← sub_div, ← sub_div]
  congr 4
  · congr 1
    · refine hSpec_map_congr _ _ _ _ fun u _ v _ => ?_
      rw [append_eq_iff (by simp [hd, hf]), append_eq_iff (by rw [hd, hd]), Prod.mk.injEq,
        append_eq_iff (by rw [hd, hd])]
      tauto
    · refine hSpec_map_congr _ _ _ _ fun u _ v _ => ?_
      rw [append_eq_iff (by simp [hg, hd]), append_eq_iff (by rw [hg, hg]), Prod.mk.injEq,
        append_eq_iff (by rw [hd, hd])]
      tauto
  · refine hSpec_map_congr _ _ _ _ fun u _ v _ => ?_
    rw [append_eq_iff (by simp [hg, hd, hf]), append_eq_iff (by simp [hg, hd]), append_eq_iff (by rw [hg, hg]),
      Prod.mk.injEq, Prod.mk.injEq, append_eq_iff (by rw [hd, hd])]
    tauto

/-- **C24** Conditional transfer entropy equals
`H(dst,fut,cond) + H(src,dst,cond) − H(src,dst,fut,cond) − H(dst,cond)` between the entropies the same
family of estimators returns for the spaces of the embedding. -/
theorem C24_cte_eq_entropy_combination (hs : 0 < s) (hl : 0 < l) (hk : 0 < k) (hc : 0 < c)
    (hm : max (max k l) c * s < source.length)
    (hlen : source.length = dest.length) (hlen2 : cond.length = dest.length) (hov : dest.length < 2 ^ 32)
    (b : Base) (hb : b.Valid) (mm : Bool) :
    ∃ sl sp h2 h1 hj hd,
      cteObservations source dest cond (.int l) (.int k) (.int c) (.int s) = .ok sl ∧
      constructJointSpaces sl = .ok sp ∧
      (if mm then millerMadowH b else pluginH b).entropy (.arr2 sp.marginal2) = .ok h2 ∧
      (if mm then millerMadowH b else pluginH b).entropy (.arr2 sp.marginal1) = .ok h1 ∧
      (if mm then millerMadowH b else pluginH b).entropy (.arr2 sp.joint) = .ok hj ∧
      (if mm then millerMadowH b else pluginH b).entropy (.arr2 sp.destPast) = .ok hd ∧
      discreteCTE source dest (some cond) (teParams l k s) (.int c) (some (.int 0)) none b mm =
        .ok (h2 + h1 - hj - hd) :=
  cte_combination source dest cond l k c s hs hl hk hc hm hlen hlen2 hov hb mm

example := C24_cte_eq_entropy_combination [1, 0, 1, 1, 0] [0, 1, 0, 1, 1] [0, 0, 1, 1, 0] 2 1 1 1 (by decide) (by decide) (by decide) (by decide) (by decide) rfl rfl (by decide) (.num 2) (by norm_num [Base.Valid]) true

/-- **C53** Conditional transfer entropy of every estimator that works by combining entropies. -/
theorem C53_generic_cte_is_entropy_combination (est : HEst) (h : est.Consistent ∨ est.GlobalOnly)
    (hs : 0 < s) (hl : 0 < l) (hk : 0 < k) (hc : 0 < c)
    (hm : max (max k l) c * s < source.length)
    (hlen : source.length = dest.length) (hlen2 : cond.length = dest.length) :
    ∃ sl sp h2 h1 hj hd,
      cteObservations source dest cond (.int l) (.int k) (.int c) (.int s) = .ok sl ∧
      constructJointSpaces sl = .ok sp ∧
      est.entropy (.arr2 sp.marginal2) = .ok h2 ∧ est.entropy (.arr2 sp.marginal1) = .ok h1 ∧
      est.entropy (.arr2 sp.joint) = .ok hj ∧ est.entropy (.arr2 sp.destPast) = .ok hd ∧
      genericCTE est source dest (some cond) (teParams l k s) (.int c) (some (.int 0)) none =
        .ok (h2 + h1 - hj - hd) := by
  have hm' : max (max k l) c * s < dest.length := hlen ▸ hm
  have hsl := cteObservations_ok source dest cond l k c s hs hl hk hc hm hlen hlen2 lawful_none
  rw [srcSel_none, histRows, histRows, futRows] at hsl
  have hsp := cteSpaces_ok (numRows dest.length (max (max k l) c) s)
    (fun i => [dest.getD ((max (max k l) c + i) * s) default])
    (histRow source (max (max k l) c) s l)
    (histRow dest (max (max k l) c) s k) (histRow cond (max (max k l) c) s c)
  obtain ⟨h2, h1, hj, hd, e1, e2, e3, e4, e5⟩ := generic_spaces h _ (numRows_pos hs hm') _ _ _ _
  refine ⟨_, _, h2, h1, hj, hd, hsl, hsp, e1, e2, e3, e4, ?_⟩
  rw [← e5]
  simp only [genericCTE, cteInit_zero hlen hlen2, teParams, hsl, hsp, bind, Except.bind]

example := C53_generic_cte_is_entropy_combination [1, 0, 1, 1, 0] [0, 1, 0, 1, 1] [0, 0, 1, 1, 0] 2 1 1 1 (pluginH (.num 2))
  (.inl (pluginH_consistent (by norm_num [Base.Valid]))) (by decide) (by decide) (by decide) (by decide) (by decide) rfl rfl

end CTE

/-- **C24** (violation of the documented default) a conditional transfer-entropy estimator left at the
base-class default `prop_time=None` is always rejected with a ValueError. -/
theorem C24_cte_default_prop_time_rejected (source dest : List Int) (cond : Option (List Int)) (p : TEParams)
    (ch : PyArg) (offset : Option PyArg) (b : Base) (mm : Bool) :
    discreteCTE source dest cond p ch none offset b mm = .error .valueError := by
  unfold discreteCTE cteInit
  cases cond with
  | none => rfl
  | some z =>
    simp only []
    split_ifs <;> rfl

/-- **C20** (violation of the documentation) "If both history lengths are 1, having `step_size > 1`
does not impact the TE calculation": it does.  With step 1 the value below is positive, with step 2
it is 0. -/
theorem C20_step_size_changes_te :
    ∃ (source dest : List Int) (t : ℝ), 0 < t ∧
      discreteTE source dest (teParams 1 1 1) (some (.int 0)) none .e = .ok t ∧
      discreteTE source dest (teParams 1 1 2) (some (.int 0)) none .e = .ok 0 := by
  refine ⟨[0, 1, 0, 7], [0, 0, 1, 0], _, ?_,
    C24_te_is_textbook [0, 1, 0, 7] [0, 0, 1, 0] 1 1 1 (by decide) (by decide) (by decide) (by decide) (by decide)
      (by decide) .e trivial, ?_⟩
  · have e1 : futRows ([0, 0, 1, 0] : List Int) ([0, 0, 1, 0] : List Int).length (max 1 1) 1 = [[0], [1], [0]] := by decide
    have e2 : histRows ([0, 1, 0, 7] : List Int) ([0, 0, 1, 0] : List Int).length (max 1 1) 1 1 = [[0], [1], [0]] := by
      decide
    have e3 : histRows ([0, 0, 1, 0] : List Int) ([0, 0, 1, 0] : List Int).length (max 1 1) 1 1 = [[0], [0], [1]] := by
      decide
    rw [e1, e2, e3, cmi_eq_entropies _ _ _ (by simp) (by simp),
      (entropy_eq_log_card_iff (([[0], [1], [0]] : List (List Int)).zip ([[0], [0], [1]] : List (List Int))) (by simp)).2
        (by decide),
      (entropy_eq_log_card_iff (([[0], [1], [0]] : List (List Int)).zip
        (([[0], [1], [0]] : List (List Int)).zip ([[0], [0], [1]] : List (List Int)))) (by simp)).2 (by decide)]
    have h1 := entropy_le_log_card ([[0], [0], [1]] : List (List Int)) (by simp)
    have k1 : (([[0], [1], [0]] : List (List Int)).zip ([[0], [0], [1]] : List (List Int))).toFinset.card = 3 := by decide
    have k2 : (([[0], [1], [0]] : List (List Int)).zip
        (([[0], [1], [0]] : List (List Int)).zip ([[0], [0], [1]] : List (List Int)))).toFinset.card = 3 := by decide
    have k3 : ([[0], [0], [1]] : List (List Int)).toFinset.card = 2 := by decide
    rw [k3] at h1
    rw [k1, k2]
    have h2 : Real.log ((2 : ℕ) : ℝ) < Real.log ((3 : ℕ) : ℝ) := Real.log_lt_log (by norm_num) (by norm_num)
    simp only [Base.ln, div_one]
    linarith
  · rw [C24_te_is_textbook [0, 1, 0, 7] [0, 0, 1, 0] 1 1 2 (by decide) (by decide) (by decide) (by decide) (by decide)
      (by decide) .e trivial]
    have e1 : futRows ([0, 0, 1, 0] : List Int) ([0, 0, 1, 0] : List Int).length (max 1 1) 2 = [[1]] := by decide
    rw [e1, cmi_const_left _ _ _ (by decide) (by decide) (by simp), zero_div]

/-! ## Offset and propagation time -/

theorem pySlice_stop_neg {α : Type} (l : List α) (o : Nat) (ho : 0 < o) :
    pySlice l none (orNone (-(o : Int))) = l.take (l.length - o) := by
  have h1 : ¬ (-(o : Int) = 0) := by omega
  have h2 : (-(o : Int)) < 0 := by omega
  simp only [pySlice, orNone, h1, if_false, pyBound, h2, if_true, List.drop_zero]
  congr 1
  omega

theorem pySlice_start {α : Type} (l : List α) (o : Nat) : pySlice l (some (o : Int)) none = l.drop o := by
  have h2 : ¬ ((o : Int) < 0) := by omega
  simp only [pySlice, pyBound, h2, if_false, List.take_length, Int.toNat_natCast]
  rcases Nat.le_total o l.length with h | h
  · rw [min_eq_left h]
  · rw [min_eq_right h, List.drop_length, List.drop_eq_nil_of_le h]

theorem miInit_offset {α : Type} (xs ys : List α) (h : xs.length = ys.length) (o : Nat) :
    miInit [xs, ys] (some (o : Int)) = .ok [xs.take (xs.length - o), ys.drop o] ∧
    miInit [xs, ys] (some (-(o : Int))) = .ok [xs.drop o, ys.take (ys.length - o)] := by
  have hall : [xs, ys].all (fun v => decide (v.length = ([xs, ys].headD []).length)) = true := by simp [h]
  unfold miInit
  rw [if_neg (by simp), if_neg (by simp), if_neg (by rw [hall]; simp), if_neg (by simp), if_neg (by simp),
    if_neg (by rw [hall]; simp)]
  rcases Nat.eq_zero_or_pos o with rfl | ho
  · simp
  · have h1 : ((o : Int) > 0) := by omega
    have h2 : ¬ (-(o : Int) > 0) := by omega
    have h3 : (-(o : Int)) < 0 := by omega
    have d0 : ([xs, ys] : List (List α)).getD 0 [] = xs := rfl
    have d1 : ([xs, ys] : List (List α)).getD 1 [] = ys := rfl
    simp only [h1, h2, h3, if_true, if_false, d0, d1]
    rw [pySlice_stop_neg _ _ ho, pySlice_start, neg_neg, pySlice_start, pySlice_stop_neg _ _ ho]
    exact ⟨rfl, rfl⟩

/-- **C25** For every offset (also beyond the series, then both sides are empty): the two sides have
equal length `n − |o|`, and pair number `t` is `(x_t, y_{t+o})` for `o ≥ 0` and `(x_{t−o}, y_t)` for
`o < 0`. -/
theorem C25_mi_offset_pairs {α : Type} (xs ys : List α) (h : xs.length = ys.length) (o : Int) :
    ∃ xs' ys', miInit [xs, ys] (some o) = .ok [xs', ys'] ∧
      xs'.length = xs.length - o.natAbs ∧ ys'.length = xs.length - o.natAbs ∧
      ∀ t, t < xs.length - o.natAbs →
        (0 ≤ o → xs'[t]? = xs[t]? ∧ ys'[t]? = ys[t + o.natAbs]?) ∧
        (o < 0 → xs'[t]? = xs[t + o.natAbs]? ∧ ys'[t]? = ys[t]?) := by
  rcases Int.le_total 0 o with ho | ho
  · obtain ⟨n, rfl⟩ := Int.eq_ofNat_of_zero_le ho
    refine ⟨_, _, (miInit_offset xs ys h n).1, by simp, by simp [h], fun t ht => ⟨fun _ => ?_, fun h' => by omega⟩⟩
    have ht' : t < xs.length - n := by simpa using ht
    rw [List.getElem?_take_of_lt ht', List.getElem?_drop]
    simp [add_comm]
  · obtain ⟨n, hn⟩ := Int.eq_ofNat_of_zero_le (by omega : 0 ≤ -o)
    obtain rfl : o = -(n : Int) := by omega
    refine ⟨_, _, (miInit_offset xs ys h n).2, by simp, by simp [h], fun t ht => ?_⟩
    have ht' : t < ys.length - n := by simpa [h] using ht
    have e : xs.drop n = xs.drop (-(n : Int)).natAbs := by simp
    refine ⟨fun h0 => ?_, fun _ => ?_⟩
    · have hn0 : n = 0 := by omega
      subst hn0
      simp at ht' ⊢
    · rw [List.getElem?_take_of_lt ht', List.getElem?_drop]
      simp [add_comm]

example := C25_mi_offset_pairs ([1, 0, 1, 1, 0] : List Int) [0, 1, 0, 1, 1] rfl (-2)

theorem discreteMI_of_init {xs ys xs' ys' : List Int} {o : Int} (h : miInit [xs, ys] (some o) = .ok [xs', ys'])
    (hl : xs'.length = ys'.length) (b : Base) (mm : Bool) :
    discreteMI (.all1D [xs, ys]) (some o) b mm = discreteMI (.all1D [xs', ys']) (some 0) b mm := by
  have h0 : miInit [xs', ys'] (some 0) = .ok [xs', ys'] := miInit_ok (N := xs'.length) (by simp) (by simp [hl])
  simp only [discreteMI, h, h0, bind, Except.bind]

/-- **C25** `MI(x, y, offset=o)` is the mutual information of the shifted series and equals
`MI(y, x, offset=−o)`, plain and Miller–Madow, for every offset smaller than the series. -/
theorem C25_mi_offset_swap (xs ys : List Int) (h : xs.length = ys.length) (o : Int)
    (ho : o.natAbs < xs.length) (hov : xs.length < 2 ^ 32) (b : Base) (hb : b.Std) (mm : Bool) :
    ∃ v, discreteMI (.all1D [xs, ys]) (some o) b mm = .ok v ∧
      discreteMI (.all1D [ys, xs]) (some (-o)) b mm = .ok v := by
  have key : ∀ (us vs : List Int), us.length = vs.length → us ≠ [] → us.length < 2 ^ 32 →
      ∃ v, discreteMI (.all1D [us, vs]) (some 0) b mm = .ok v ∧ discreteMI (.all1D [vs, us]) (some 0) b mm = .ok v := by
    intro us vs hl hne hov'
    have hvne : vs ≠ [] := List.length_pos_iff.1 (hl ▸ List.length_pos_iff.2 hne)
    cases mm with
    | false =>
      refine ⟨_, C11_mi_is_textbook us vs hl hne hov' b hb, ?_⟩
      rw [C11_mi_is_textbook vs us hl.symm hvne (by omega) b hb, mi_comm us vs hl]
    | true =>
      obtain ⟨hx, hy, hxy, e1, e2, e3, e4⟩ := C19_mm_mi_two_variables us vs hl hne hov' b hb
      obtain ⟨hx', hy', hxy', e1', e2', e3', e4'⟩ := C19_mm_mi_two_variables vs us hl.symm hvne (by omega) b hb
      rw [e2, Except.ok.injEq] at e1'
      rw [e1, Except.ok.injEq] at e2'
      have hmm : millerMadow (Spec.rows us.length [us, vs]) = millerMadow (Spec.rows us.length [vs, us]) := by
        have := hSpec_map_congr true (List.range us.length) (Spec.row [us, vs]) (Spec.row [vs, us])
          (fun u _ v _ => by simp [Spec.row]; tauto)
        simpa [hSpec, Spec.rows] using this
      rw [mm_tup (N := us.length) (List.length_pos_iff.2 hne) (by simp) (by simp [hl]) hb.valid, Except.ok.injEq] at e3
      rw [mm_tup (N := us.length) (List.length_pos_iff.2 hne) (by simp) (by simp [hl]) hb.valid, ← hmm, e3,
        Except.ok.injEq] at e3'
      refine ⟨_, e4, ?_⟩
      rw [e4', ← e1', ← e2', ← e3', add_comm]
  rcases Int.le_total 0 o with ho' | ho'
  · obtain ⟨n, rfl⟩ := Int.eq_ofNat_of_zero_le ho'
    have hn : n < xs.length := by simpa using ho
    rw [discreteMI_of_init (miInit_offset xs ys h n).1 (by simp [h]) b mm,
      discreteMI_of_init (miInit_offset ys xs h.symm n).2 (by simp [h]) b mm]
    exact key _ _ (by simp [h]) (List.length_pos_iff.1 (by simp; omega)) (by simp; omega)
  · obtain ⟨n, hn⟩ := Int.eq_ofNat_of_zero_le (by omega : 0 ≤ -o)
    obtain rfl : o = -(n : Int) := by omega
    have hn : n < xs.length := by simpa using ho
    rw [discreteMI_of_init (miInit_offset xs ys h n).2 (by simp [h]) b mm, neg_neg,
      discreteMI_of_init (miInit_offset ys xs h.symm n).1 (by simp [h]) b mm]
    exact key _ _ (by simp [h]) (List.length_pos_iff.1 (by simp; omega)) (by simp; omega)

example := C25_mi_offset_swap [1, 0, 1, 1, 0] [0, 1, 0, 1, 1] rfl (-2) (by decide) (by decide) (.num 2) (by norm_num [Base.Std]) true

/-- **C25** Transfer entropy with propagation time `p` (or the alias `offset`): the source is shifted
by `p·step` samples against the destination, both keep equal length, and the result is the transfer
entropy of the shifted series. -/
theorem C25_te_propagation_time (source dest : List Int) (hlen : source.length = dest.length) (p : Int)
    (l k s : Nat) (hs : 0 < s) (b : Base) (mm : Bool) (rnd : SrcRandom) :
    ∃ x y, x.length = source.length - p.natAbs * s ∧ y.length = source.length - p.natAbs * s ∧
      (∀ t, t < source.length - p.natAbs * s →
        (0 ≤ p → x[t]? = source[t]? ∧ y[t]? = dest[t + p.natAbs * s]?) ∧
        (p < 0 → x[t]? = source[t + p.natAbs * s]? ∧ y[t]? = dest[t]?)) ∧
      discreteTE source dest (teParams l k s) (some (.int p)) none b mm rnd =
        discreteTE x y (teParams l k s) (some (.int 0)) none b mm rnd ∧
      discreteTE source dest (teParams l k s) (some (.int 0)) (some (.int p)) b mm rnd =
        discreteTE x y (teParams l k s) (some (.int 0)) none b mm rnd := by
  have hofs : teInit source dest (some (.int 0)) (some (.int p)) (.int s) =
      teInit source dest (some (.int p)) none (.int s) := by
    by_cases h0 : p = 0
    · subst h0; simp [teInit]
    · simp [teInit, h0]
  have key : ∀ x y, x.length = y.length → teInit source dest (some (.int p)) none (.int s) = .ok (x, y) →
      discreteTE source dest (teParams l k s) (some (.int p)) none b mm rnd =
        discreteTE x y (teParams l k s) (some (.int 0)) none b mm rnd ∧
      discreteTE source dest (teParams l k s) (some (.int 0)) (some (.int p)) b mm rnd =
        discreteTE x y (teParams l k s) (some (.int 0)) none b mm rnd := by
    intro x y hxy h
    constructor
    · simp only [discreteTE, teParams, h, teInit_zero hxy, bind, Except.bind]
    · simp only [discreteTE, teParams, hofs, h, teInit_zero hxy, bind, Except.bind]
  rcases Int.lt_trichotomy p 0 with hp | rfl | hp
  · obtain ⟨n, hn⟩ := Int.eq_ofNat_of_zero_le (by omega : 0 ≤ -p)
    obtain rfl : p = -(n : Int) := by omega
    have hn0 : 0 < n := by omega
    have hns : 0 < n * s := Nat.mul_pos hn0 hs
    have h : teInit source dest (some (.int (-(n : Int)))) none (.int s) =
        .ok (source.drop (n * s), dest.take (dest.length - n * s)) := by
      have e1 : - -(n : Int) * s = ((n * s : ℕ) : Int) := by push_cast; ring
      have e2 : -(n : Int) * s = -((n * s : ℕ) : Int) := by push_cast; ring
      have h1 : ¬ (-(n : Int) = 0) := by omega
      have h2 : ¬ (0 < -(n : Int)) := by omega
      simp only [teInit, not_true_eq_false, if_false, hlen, ne_eq, h1, h2, e1, e2, pySlice_start,
        pySlice_stop_neg _ _ hns]
    refine ⟨_, _, by simp, by simp [hlen], fun t ht => ⟨fun h' => by omega, fun _ => ?_⟩, key _ _ (by simp [hlen]) h⟩
    have ht' : t < dest.length - n * s := by simpa [hlen] using ht
    rw [List.getElem?_take_of_lt ht', List.getElem?_drop]
    simp [add_comm]
  · refine ⟨source, dest, by simp, by simp [hlen], fun t _ => by simp, key _ _ hlen (teInit_zero hlen _)⟩
  · obtain ⟨n, rfl⟩ := Int.eq_ofNat_of_zero_le hp.le
    have hn0 : 0 < n := by omega
    have hns : 0 < n * s := Nat.mul_pos hn0 hs
    have h : teInit source dest (some (.int (n : Int))) none (.int s) =
        .ok (source.take (source.length - n * s), dest.drop (n * s)) := by
      have e1 : (n : Int) * s = ((n * s : ℕ) : Int) := by push_cast; ring
      have e2 : -(n : Int) * s = -((n * s : ℕ) : Int) := by push_cast; ring
      have h1 : ¬ ((n : Int) = 0) := by omega
      simp only [teInit, not_true_eq_false, if_false, hlen, ne_eq, h1, hp, if_true, e1, e2, pySlice_start,
        pySlice_stop_neg _ _ hns]
    refine ⟨_, _, by simp, by simp [hlen], fun t ht => ⟨fun _ => ?_, fun h' => by omega⟩, key _ _ (by simp [hlen]) h⟩
    have ht' : t < source.length - n * s := by simpa using ht
    rw [List.getElem?_take_of_lt ht', List.getElem?_drop]
    simp [add_comm]

example : ∃ (xs ys : List Int) (o : Int), xs.length = ys.length ∧ o.natAbs < xs.length ∧ o < 0 ∧
    xs.length < 2 ^ 32 := ⟨[0, 1, 1, 0], [1, 1, 0, 1], -2, by decide, by decide, by decide, by decide⟩

end Verif
