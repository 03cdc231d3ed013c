import Verif.Props.TE
import Mathlib.Analysis.SpecialFunctions.Log.Basic

/-! # Properties C24, C25, C53 : transfer entropy -/

namespace Verif

open Spec

/-- integer slicing parameters -/
def teParams (l k s : Nat) : TEParams := { srcHist := .int l, destHist := .int k, step := .int s }

theorem teInit_zero {α : Type} {source dest : List α} (hlen : source.length = dest.length) (st : PyArg) :
    teInit source dest (some (.int 0)) none st = .ok (source, dest) := by
  simp [teInit, hlen]

/-- source rows as a function of the row number -/
theorem srcRows_eq {α : Type} [Inhabited α] (source : List α) (m s l R : Nat) {rnd : SrcRandom} (hr : rnd.Lawful) :
    (srcSel rnd R).map (histRow source m s l) =
      (List.range R).map (fun i => histRow source m s l ((srcSel rnd R).getD i 0)) := by
  conv_lhs => rw [← col_map_range (srcSel rnd R) R (srcSel_length hr R), List.map_map]
  rfl

section TE

variable (source dest : List Int) (l k s : Nat)

/-- value of the transfer-entropy estimators -/
theorem te_value (hs : 0 < s) (hl : 0 < l) (hk : 0 < k) (hm : max k l * s < source.length)
    (hlen : source.length = dest.length) (hov : dest.length < 2 ^ 32) {b : Base} (hb : b.Valid) (mm : Bool)
    {rnd : SrcRandom} (hr : rnd.Lawful) :
    ∃ (f g d : Nat → List Int) (R : Nat), 0 < R ∧ (∀ i, (f i).length = 1) ∧ (∀ i, (g i).length = l) ∧
      (∀ i, (d i).length = k) ∧ R = numRows dest.length (max k l) s ∧
      (fun i : Nat => [dest.getD ((max k l + i) * s) default]) = f ∧
      (fun i => histRow source (max k l) s l ((srcSel rnd R).getD i 0)) = g ∧
      histRow dest (max k l) s k = d ∧
      teObservations source dest (.int l) (.int k) (.int s) rnd =
        .ok { src := (List.range R).map g, dest := (List.range R).map d, fut := (List.range R).map f } ∧
      discreteTE source dest (teParams l k s) (some (.int 0)) none b mm rnd =
      .ok ((hSpec mm ((List.range R).map (fun i => (f i, d i))) +
        hSpec mm ((List.range R).map (fun i => (g i, d i))) -
        hSpec mm ((List.range R).map (fun i => (f i, g i, d i))) -
        hSpec mm ((List.range R).map d)) / b.ln) := by
  have hm' : max k l * s < dest.length := hlen ▸ hm
  have h := teObservations_ok source dest l k s hs hl hk hm hlen hr
  rw [srcRows_eq _ _ _ _ _ hr, histRows, futRows] at h
  have hR : numRows dest.length (max k l) s < 2 ^ 32 := by
    refine lt_of_le_of_lt ?_ hov
    unfold numRows
    rw [Nat.div_le_iff_le_mul_add_pred hs]
    have := Nat.mul_le_mul_right dest.length hs
    omega
  refine ⟨_, _, _, _, numRows_pos hs hm', by simp, by simp [histRow], by simp [histRow], rfl, rfl, rfl, rfl, h, ?_⟩
  simp only [discreteTE, teInit_zero hlen, bind, Except.bind, teParams, h, combinedTE_none]
  exact cmiNdInt_codes _ (numRows_pos hs hm') hR _ _ _ hb mm

/-- **C24** Discrete transfer entropy is the textbook conditional mutual information
`I(future; source history | destination history)` of the embedding. -/
theorem C24_te_is_textbook (hs : 0 < s) (hl : 0 < l) (hk : 0 < k) (hm : max k l * s < source.length)
    (hlen : source.length = dest.length) (hov : dest.length < 2 ^ 32) (b : Base) (hb : b.Valid) :
    discreteTE source dest (teParams l k s) (some (.int 0)) none b =
      .ok (Spec.cmi (futRows dest dest.length (max k l) s) (histRows source dest.length (max k l) s l)
        (histRows dest dest.length (max k l) s k) / b.ln) := by
  obtain ⟨f, g, d, R, hR, _, _, _, rfl, rfl, rfl, rfl, _, h⟩ :=
    te_value source dest l k s hs hl hk hm hlen hov hb false lawful_none
  rw [h, histRows, histRows, futRows, cmi_rows]
  simp only [hSpec, Bool.false_eq_true, if_false]
  have hget : ∀ i ∈ List.range (numRows dest.length (max k l) s),
      (srcSel {} (numRows dest.length (max k l) s)).getD i 0 = i := by
    intro i hi
    rw [srcSel_none, List.getD_eq_getElem?_getD]
    simp [List.mem_range.1 hi]
  have e1 : (List.range (numRows dest.length (max k l) s)).map (fun i => (histRow source (max k l) s l
      ((srcSel {} (numRows dest.length (max k l) s)).getD i 0), histRow dest (max k l) s k i)) =
      (List.range (numRows dest.length (max k l) s)).map (fun i => (histRow source (max k l) s l i,
        histRow dest (max k l) s k i)) := List.map_congr_left fun i hi => by rw [hget i hi]
  have e2 : (List.range (numRows dest.length (max k l) s)).map (fun i =>
      ([dest.getD ((max k l + i) * s) default], histRow source (max k l) s l
      ((srcSel {} (numRows dest.length (max k l) s)).getD i 0), histRow dest (max k l) s k i)) =
      (List.range (numRows dest.length (max k l) s)).map (fun i =>
        ([dest.getD ((max k l + i) * s) default], histRow source (max k l) s l i,
        histRow dest (max k l) s k i)) := List.map_congr_left fun i hi => by rw [hget i hi]
  rw [e1, e2]

example := C24_te_is_textbook [1, 0, 1, 1, 0] [0, 1, 0, 1, 1] 2 1 1 (by decide) (by decide) (by decide) (by decide) rfl (by decide) (.num 2) (by norm_num [Base.Valid])

/-- both estimators as entropy combinations of the spaces the slicing returns -/
theorem te_combination (hs : 0 < s) (hl : 0 < l) (hk : 0 < k) (hm : max k l * s < source.length)
    (hlen : source.length = dest.length) (hov : dest.length < 2 ^ 32) {b : Base} (hb : b.Valid) (mm : Bool)
    {rnd : SrcRandom} (hr : rnd.Lawful) :
    ∃ sl sp h2 h1 hj hd, teObservations source dest (.int l) (.int k) (.int s) rnd = .ok sl ∧
      constructJointSpaces sl = .ok sp ∧
      (hFamily b mm).entropy (.arr2 sp.marginal2) = .ok h2 ∧
      (hFamily b mm).entropy (.arr2 sp.marginal1) = .ok h1 ∧
      (hFamily b mm).entropy (.arr2 sp.joint) = .ok hj ∧
      (hFamily b mm).entropy (.arr2 sp.destPast) = .ok hd ∧
      discreteTE source dest (teParams l k s) (some (.int 0)) none b mm rnd = .ok (h2 + h1 - hj - hd) := by
  obtain ⟨f, g, d, R, hR, hf, hg, hd, _, _, _, _, hsl, h⟩ :=
    te_value source dest l k s hs hl hk hm hlen hov hb mm hr
  have hne : ∀ q : Nat → List Int, (List.range R).map q ≠ [] := fun q => by simp; omega
  refine ⟨_, _, _, _, _, _, hsl, teSpaces_ok R f g d, hFamily_entropy_arr2 hb mm (hne _),
    hFamily_entropy_arr2 hb mm (hne _), hFamily_entropy_arr2 hb mm (hne _), hFamily_entropy_arr2 hb mm (hne _), ?_⟩
  rw [h, ← add_div, ← sub_div, ← sub_div]
  congr 4
  · congr 1
    · refine hSpec_map_congr _ _ _ _ fun u _ v _ => ?_
      rw [append_eq_iff (by rw [hd, hd]), Prod.mk.injEq, and_comm]
    · refine hSpec_map_congr _ _ _ _ fun u _ v _ => ?_
      rw [append_eq_iff (by rw [hg, hg]), Prod.mk.injEq]
  · refine hSpec_map_congr _ _ _ _ fun u _ v _ => ?_
    rw [append_eq_iff (by simp [hg, hd]), append_eq_iff (by rw [hg, hg]), Prod.mk.injEq, Prod.mk.injEq]
    tauto

/-- **C24** Discrete transfer entropy is
`H(dst,fut) + H(src,dst) − H(src,dst,fut) − H(dst)` between the library's own entropies of the spaces
the slicing returns, and non-negative, with or without permuted or resampled source. -/
theorem C24_te_eq_entropy_combination (hs : 0 < s) (hl : 0 < l) (hk : 0 < k)
    (hm : max k l * s < source.length) (hlen : source.length = dest.length) (hov : dest.length < 2 ^ 32)
    (b : Base) (hb : b.Std) (rnd : SrcRandom) (hr : rnd.Lawful) :
    ∃ sl sp h2 h1 hj hd t, teObservations source dest (.int l) (.int k) (.int s) rnd = .ok sl ∧
      constructJointSpaces sl = .ok sp ∧
      discreteEntropy [.arr2 sp.marginal2] b = .ok h2 ∧ discreteEntropy [.arr2 sp.marginal1] b = .ok h1 ∧
      discreteEntropy [.arr2 sp.joint] b = .ok hj ∧ discreteEntropy [.arr2 sp.destPast] b = .ok hd ∧
      discreteTE source dest (teParams l k s) (some (.int 0)) none b false rnd = .ok t ∧
      t = h2 + h1 - hj - hd ∧ 0 ≤ t := by
  obtain ⟨sl, sp, h2, h1, hj, hd, e1, e2, e3, e4, e5, e6, e7⟩ :=
    te_combination source dest l k s hs hl hk hm hlen hov hb.valid false hr
  have hE : ∀ rows v, (hFamily b false).entropy (.arr2 rows) = .ok v → discreteEntropy [.arr2 rows] b = .ok v := by
    intro rows v hv
    by_cases hne : rows = []
    · subst hne
      exact absurd hv (by simp [HEst.entropy, hConstruct, discreteHInit, entropyInit, reduceVar, reduceJointSpace,
        npInverse, fromData_nil, bind, Except.bind])
    · rw [hFamily_entropy_arr2 hb.valid false hne] at hv
      rw [discreteEntropy_arr2 hne hb.valid, ← hv]
      simp [hSpec]
  refine ⟨sl, sp, h2, h1, hj, hd, _, e1, e2, hE _ _ e3, hE _ _ e4, hE _ _ e5, hE _ _ e6, e7, rfl, ?_⟩
  obtain ⟨f, g, d, R, hR, _, _, _, _, _, _, _, _, h⟩ :=
    te_value source dest l k s hs hl hk hm hlen hov hb.valid false hr
  rw [e7, Except.ok.injEq] at h
  rw [h]
  refine div_nonneg ?_ hb.ln_pos.le
  simp only [hSpec, Bool.false_eq_true, if_false]
  rw [← cmi_rows]
  exact cmi_nonneg _ _ _ (by simp) (by simp)

example := C24_te_eq_entropy_combination [1, 0, 1, 1, 0] [0, 1, 0, 1, 1] 2 1 1 (by decide) (by decide) (by decide) (by decide) rfl (by decide) (.num 2) (by norm_num [Base.Std])
  { permute := some (fun R => (List.range R).reverse) } ⟨by simp, fun f hf R => by simp at hf; subst hf; exact List.reverse_perm _, by simp⟩

/-- **C24** The Miller–Madow transfer entropy is the same combination of Miller–Madow entropies. -/
theorem C24_mm_te_eq_entropy_combination (hs : 0 < s) (hl : 0 < l) (hk : 0 < k)
    (hm : max k l * s < source.length) (hlen : source.length = dest.length) (hov : dest.length < 2 ^ 32)
    (b : Base) (hb : b.Valid) (rnd : SrcRandom) (hr : rnd.Lawful) :
    ∃ sl sp h2 h1 hj hd, teObservations source dest (.int l) (.int k) (.int s) rnd = .ok sl ∧
      constructJointSpaces sl = .ok sp ∧
      (millerMadowH b).entropy (.arr2 sp.marginal2) = .ok h2 ∧
      (millerMadowH b).entropy (.arr2 sp.marginal1) = .ok h1 ∧
      (millerMadowH b).entropy (.arr2 sp.joint) = .ok hj ∧
      (millerMadowH b).entropy (.arr2 sp.destPast) = .ok hd ∧
      discreteTE source dest (teParams l k s) (some (.int 0)) none b true rnd = .ok (h2 + h1 - hj - hd) :=
  te_combination source dest l k s hs hl hk hm hlen hov hb true hr

example := C24_mm_te_eq_entropy_combination [1, 0, 1, 1, 0] [0, 1, 0, 1, 1] 2 1 1 (by decide) (by decide) (by decide) (by decide) rfl (by decide) (.num 2) (by norm_num [Base.Valid]) {} lawful_none

/-- **C53** Transfer entropy of every estimator that works by combining entropies is
`H(dst,fut) + H(src,dst) − H(src,dst,fut) − H(dst)` of exactly the entropies the estimator itself
returns for the spaces of the embedding. -/
theorem C53_generic_te_is_entropy_combination (est : HEst) (h : est.Consistent ∨ est.GlobalOnly)
    (hs : 0 < s) (hl : 0 < l) (hk : 0 < k)
    (hm : max k l * s < source.length) (hlen : source.length = dest.length)
    (rnd : SrcRandom) (hr : rnd.Lawful) :
    ∃ sl sp h2 h1 hj hd, teObservations source dest (.int l) (.int k) (.int s) rnd = .ok sl ∧
      constructJointSpaces sl = .ok sp ∧
      est.entropy (.arr2 sp.marginal2) = .ok h2 ∧ est.entropy (.arr2 sp.marginal1) = .ok h1 ∧
      est.entropy (.arr2 sp.joint) = .ok hj ∧ est.entropy (.arr2 sp.destPast) = .ok hd ∧
      genericTE est source dest (teParams l k s) (some (.int 0)) none rnd = .ok (h2 + h1 - hj - hd) := by
  have hm' : max k l * s < dest.length := hlen ▸ hm
  have hsl := teObservations_ok source dest l k s hs hl hk hm hlen hr
  rw [srcRows_eq _ _ _ _ _ hr, histRows, futRows] at hsl
  have hsp := teSpaces_ok (numRows dest.length (max k l) s)
    (fun i => [dest.getD ((max k l + i) * s) default])
    (fun i => histRow source (max k l) s l ((srcSel rnd (numRows dest.length (max k l) s)).getD i 0))
    (histRow dest (max k l) s k)
  obtain ⟨h2, h1, hj, hd, e1, e2, e3, e4, e5⟩ := generic_spaces h _ (numRows_pos hs hm')
    _ _ _ _
  refine ⟨_, _, h2, h1, hj, hd, hsl, hsp, e1, e2, e3, e4, ?_⟩
  rw [← e5]
  simp only [genericTE, teInit_zero hlen, teParams, hsl, hsp, bind, Except.bind]

example := C53_generic_te_is_entropy_combination [1, 0, 1, 1, 0] [0, 1, 0, 1, 1] 2 1 1 (pluginH (.num 2)) (.inl (pluginH_consistent (by norm_num [Base.Valid])))
  (by decide) (by decide) (by decide) (by decide) rfl {} lawful_none

/-- **C24** The generic slicing-based path returns the same value as the dedicated implementation, for
the plug-in and for the Miller–Madow estimator. -/
theorem C24_generic_path_agrees (hs : 0 < s) (hl : 0 < l) (hk : 0 < k)
    (hm : max k l * s < source.length) (hlen : source.length = dest.length) (hov : dest.length < 2 ^ 32)
    (b : Base) (hb : b.Valid) (rnd : SrcRandom) (hr : rnd.Lawful) :
    genericTE (pluginH b) source dest (teParams l k s) (some (.int 0)) none rnd =
      discreteTE source dest (teParams l k s) (some (.int 0)) none b false rnd ∧
    genericTE (millerMadowH b) source dest (teParams l k s) (some (.int 0)) none rnd =
      discreteTE source dest (teParams l k s) (some (.int 0)) none b true rnd := by
  have key : ∀ mm, genericTE (hFamily b mm) source dest (teParams l k s) (some (.int 0)) none rnd =
      discreteTE source dest (teParams l k s) (some (.int 0)) none b mm rnd := by
    intro mm
    obtain ⟨sl, sp, h2, h1, hj, hd, e1, e2, e3, e4, e5, e6, e7⟩ :=
      te_combination source dest l k s hs hl hk hm hlen hov hb mm hr
    obtain ⟨sl', sp', h2', h1', hj', hd', e1', e2', e3', e4', e5', e6', e7'⟩ :=
      C53_generic_te_is_entropy_combination source dest l k s (hFamily b mm) (Or.inl (hFamily_consistent hb mm))
        hs hl hk hm hlen rnd hr
    rw [e1, Except.ok.injEq] at e1'
    subst e1'
    rw [e2, Except.ok.injEq] at e2'
    subst e2'
    rw [e3, Except.ok.injEq] at e3'
    rw [e4, Except.ok.injEq] at e4'
    rw [e5, Except.ok.injEq] at e5'
    rw [e6, Except.ok.injEq] at e6'
    rw [e7, e7', e3', e4', e5', e6']
  exact ⟨key false, key true⟩

example := C24_generic_path_agrees [1, 0, 1, 1, 0] [0, 1, 0, 1, 1] 2 1 1 (by decide) (by decide) (by decide) (by decide) rfl (by decide) (.num 2) (by norm_num [Base.Valid]) {} lawful_none

/-- **C24** A constant source transfers nothing (plain and Miller–Madow, any base). -/
theorem C24_constant_source (hs : 0 < s) (hl : 0 < l) (hk : 0 < k)
    (hm : max k l * s < source.length) (hlen : source.length = dest.length) (hov : dest.length < 2 ^ 32)
    (b : Base) (hb : b.Valid) (mm : Bool) (rnd : SrcRandom) (hr : rnd.Lawful)
    (hc : ∀ x ∈ source, ∀ y ∈ source, x = y) :
    discreteTE source dest (teParams l k s) (some (.int 0)) none b mm rnd = .ok 0 := by
  have hm' : max k l * s < dest.length := hlen ▸ hm
  obtain ⟨f, g, d, R, hR, hf, hg, hd, hRe, hfe, hge, hde, hsl, h⟩ :=
    te_value source dest l k s hs hl hk hm hlen hov hb mm hr
  have hgc : ∀ u ∈ List.range R, ∀ v ∈ List.range R, g u = g v := by
    intro u hu v hv
    rw [← hge]
    have hin : ∀ w ∈ List.range R, ∀ j < l, source.getD ((max k l + (srcSel rnd R).getD w 0 - l + j) * s) default ∈ source := by
      intro w hw j hj
      have hw := List.mem_range.1 hw
      have hw' : w < (srcSel rnd R).length := by rw [srcSel_length hr]; exact hw
      have h1 : (srcSel rnd R).getD w 0 < R := by
        refine srcSel_lt hr R _ ?_
        rw [List.getD_eq_getElem?_getD, List.getElem?_eq_getElem hw', Option.getD_some]
        exact List.getElem_mem hw'
      have h2 := (lt_numRows (i := (srcSel rnd R).getD w 0) hs hm').1 (by rw [← hRe]; exact h1)
      have h3 : (max k l + (srcSel rnd R).getD w 0 - l + j) * s ≤ (max k l + (srcSel rnd R).getD w 0) * s :=
        Nat.mul_le_mul_right s (by omega)
      have h4 : (max k l + (srcSel rnd R).getD w 0 - l + j) * s < source.length := by omega
      rw [List.getD_eq_getElem?_getD, List.getElem?_eq_getElem h4, Option.getD_some]
      exact List.getElem_mem h4
    simp only [histRow]
    refine List.map_congr_left fun j hj => ?_
    exact hc _ (hin u hu j (List.mem_range.1 hj)) _ (hin v hv j (List.mem_range.1 hj))
  rw [h, hSpec_map_congr mm (List.range R) (fun i => (g i, d i)) d
      (fun u hu v hv => by rw [Prod.mk.injEq]; exact ⟨fun e => e.2, fun e => ⟨hgc u hu v hv, e⟩⟩),
    hSpec_map_congr mm (List.range R) (fun i => (f i, g i, d i)) (fun i => (f i, d i))
      (fun u hu v hv => by
        rw [Prod.mk.injEq, Prod.mk.injEq, Prod.mk.injEq]
        exact ⟨fun e => ⟨e.1, e.2.2⟩, fun e => ⟨e.1, hgc u hu v hv, e.2⟩⟩)]
  simp

example := C24_constant_source [7, 7, 7, 7, 7] [0, 1, 0, 1, 1] 2 1 1 (by decide) (by decide) (by decide) (by decide) rfl (by decide) (.num 2) (by norm_num [Base.Valid]) true {} lawful_none (by decide)

end TE

example : ∃ (source dest : List Int) (l k s : Nat), 0 < s ∧ 0 < l ∧ 0 < k ∧
    max k l * s < source.length ∧ source.length = dest.length ∧ dest.length < 2 ^ 32 :=
  ⟨[0, 1, 0, 1, 1, 0, 1], [1, 1, 0, 0, 1, 0, 1], 1, 2, 2, by decide, by decide, by decide, by decide,
    by decide, by decide⟩

end Verif
