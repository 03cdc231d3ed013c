import Verif.Lemmas.EqualityJsd
import Verif.Props.TE3
import Verif.Props.CMI
import Verif.Props.Complete
import Verif.Props.OrdinalMI2
import Verif.Props.OrdinalTE2
import Verif.Props.VecTE
import Verif.Props.CondTE

/-! # C79: when a reported value is zero, and when it is as large as it can be -/

namespace Verif

open Verif.Spec

theorem eqp_zero {x c : ℝ} (hc : 0 < c) : x / c = 0 ↔ x = 0 := by rw [div_eq_zero_iff, or_iff_left hc.ne']

/-- **C79** Conditional mutual information is never above the conditional entropy `H(X, Z) − H(Z)` reported by the entropy function;
it is zero exactly when the two variables are independent given the condition, and equal to that conditional entropy exactly when the
first variable is a function of the second and the condition. -/
theorem C79_cmi (xs ys z : List Int) (h1 : xs.length = ys.length) (h2 : ys.length = z.length) (hne : xs ≠ [])
    (hov : xs.length < 2 ^ 32) (b : Base) (hb : b.Std) :
    ∃ I HXZ HZ, discreteCMI [xs, ys] (some (.arr1 z)) none b = .ok I ∧ discreteEntropy [.tup [xs, z]] b = .ok HXZ ∧
      discreteEntropy [.arr1 z] b = .ok HZ ∧ 0 ≤ I ∧ I ≤ HXZ - HZ ∧
      (I = 0 ↔ CondIndep xs ys z) ∧
      (I = HXZ - HZ ↔ Determines (ys.zip z) xs) := by
  have hz : z ≠ [] := by rintro rfl; exact hne (List.eq_nil_of_length_eq_zero (h1.trans h2))
  have hpos : 0 < xs.length := List.length_pos_iff.2 hne
  have hj : entropy (Spec.rows xs.length [xs, z]) = entropy (xs.zip z) := by
    have := tc_pair xs z (by omega)
    rw [totalCorrelation, mi_eq_entropies xs z (by omega)] at this
    simp only [List.map_cons, List.map_nil, List.sum_cons, List.sum_nil, add_zero] at this
    linarith
  have hl2 : xs.length = (ys.zip z).length := by simp; omega
  have hx : (xs.zip (ys.zip z)).map (fun w => w.1) = xs := map_fst_zip' xs _ hl2
  have hyz : (xs.zip (ys.zip z)).map (fun w => w.2) = ys.zip z := map_snd_zip' xs _ hl2
  have hy : (xs.zip (ys.zip z)).map (fun w => w.2.1) = ys := by
    have : (xs.zip (ys.zip z)).map (fun w => w.2.1) = ((xs.zip (ys.zip z)).map (fun w => w.2)).map Prod.fst := by
      rw [List.map_map]; rfl
    rw [this, hyz, map_fst_zip' ys z h2]
  have hz' : (xs.zip (ys.zip z)).map (fun w => w.2.2) = z := by
    have : (xs.zip (ys.zip z)).map (fun w => w.2.2) = ((xs.zip (ys.zip z)).map (fun w => w.2)).map Prod.snd := by
      rw [List.map_map]; rfl
    rw [this, hyz, map_snd_zip' ys z h2]
  obtain ⟨hle, heq⟩ := cmi_map_le_cond (xs.zip (ys.zip z)) (fun w => w.1) (fun w => w.2.1) (fun w => w.2.2)
  rw [hx, hy, hz'] at hle heq
  refine ⟨_, _, _, C16_cmi_is_textbook xs ys z h1 h2 hne hov b hb.valid,
    jointEntropy_ok (n := xs.length) hpos (by simp) (by simp; omega) hb.valid, discreteEntropy_arr1 hz hb.valid,
    div_nonneg (cmi_nonneg xs ys z h1 h2) hb.ln_pos.le, ?_, ?_, ?_⟩
  · rw [hj, ← sub_div]
    exact div_le_div_of_nonneg_right hle hb.ln_pos.le
  · rw [eqp_zero hb.ln_pos]; exact cmi_eq_zero_iff xs ys z h1 h2
  · rw [hj, ← sub_div, div_left_inj' hb.ln_pos.ne']
    exact heq

example := C79_cmi [5, 7, 5] [0, 0, 1] [2, 3, 3] rfl rfl (by decide) (by decide) (.num 2) (by norm_num [Base.Std])

/-- **C79** Two-variable mutual information equals the entropy of the first variable exactly when that variable is a function of the
second, and the entropy of the second exactly when the second is a function of the first; the joint entropy equals the entropy of the
first variable exactly when the second is a function of it. -/
theorem C79_mi_max (xs ys : List Int) (h : xs.length = ys.length) (hne : xs ≠ []) (hov : xs.length < 2 ^ 32) (b : Base) (hb : b.Std) :
    ∃ I HX HY HXY, discreteMI (.all1D [xs, ys]) (some 0) b = .ok I ∧ discreteEntropy [.arr1 xs] b = .ok HX ∧
      discreteEntropy [.arr1 ys] b = .ok HY ∧ discreteEntropy [.tup [xs, ys]] b = .ok HXY ∧
      (I = HX ↔ Determines ys xs) ∧ (I = HY ↔ Determines xs ys) ∧ (HXY = HX ↔ Determines xs ys) := by
  have hy : ys ≠ [] := by rintro rfl; exact hne (List.eq_nil_of_length_eq_zero (by simpa using h))
  have hpos : 0 < xs.length := List.length_pos_iff.2 hne
  have hj : entropy (Spec.rows xs.length [xs, ys]) = entropy (xs.zip ys) := by
    have := tc_pair xs ys h
    rw [totalCorrelation, mi_eq_entropies xs ys h] at this
    simp only [List.map_cons, List.map_nil, List.sum_cons, List.sum_nil, add_zero] at this
    linarith
  refine ⟨_, _, _, _, discreteMI_std h hne hov hb, discreteEntropy_arr1 hne hb.valid, discreteEntropy_arr1 hy hb.valid,
    jointEntropy_ok (n := xs.length) hpos (by simp) (by simp; omega) hb.valid, ?_, ?_, ?_⟩
  · rw [div_left_inj' hb.ln_pos.ne']; exact mi_eq_entropy_iff xs ys h
  · rw [div_left_inj' hb.ln_pos.ne', mi_comm xs ys h]; exact mi_eq_entropy_iff ys xs h.symm
  · rw [hj, div_left_inj' hb.ln_pos.ne', ← mi_eq_entropy_iff ys xs h.symm, mi_comm ys xs h.symm, mi_eq_entropies xs ys h]
    exact ⟨fun e => by linarith, fun e => by linarith⟩

example := C79_mi_max [5, 7, 5] [0, 0, 1] rfl (by decide) (by decide) (.num 2) (by norm_num [Base.Std])

/-- **C79** Mutual information of any number of variables (three or more: none of them constant) is zero exactly when every joint frequency
is the product of the single frequencies. -/
theorem C79_mi_zero_many (data : List (List Int)) (N : Nat) (hN : 0 < N) (h2 : 2 ≤ data.length)
    (hl : ∀ c ∈ data, c.length = N) (hc : data.length = 2 ∨ ∀ c ∈ data, ¬ IsConst c) (hov : N ^ data.length < 2 ^ 64)
    (b : Base) (hb : b.Std) :
    ∃ v, discreteMI (.all1D data) (some 0) b = .ok v ∧ (v = 0 ↔ Factorises N data) := by
  obtain ⟨v, hv, -, h⟩ := C13_total_correlation_iff data N hN h2 hl hov b hb
  refine ⟨v, hv, ?_⟩
  rw [h.2 (hc.imp_right Or.inl), eqp_zero hb.ln_pos]
  exact tc_eq_zero_iff N hN data hl

example := C79_mi_zero_many [[5, 7, 5], [0, 0, 1], [4, 3, 3]] 3 (by decide) (by decide) (by decide) (.inr (by unfold IsConst; decide))
  (by decide) (.num 2) (by norm_num [Base.Std])

theorem eqp_te {α β γ : Type} [DecidableEq α] [DecidableEq β] [DecidableEq γ] (R : Nat) (f : Nat → α) (g : Nat → β) (h : Nat → γ)
    {c : ℝ} (hc : 0 < c) :
    cmi ((List.range R).map f) ((List.range R).map g) ((List.range R).map h) / c ≤
      condEntropy ((List.range R).map f) ((List.range R).map h) / c ∧
    (cmi ((List.range R).map f) ((List.range R).map g) ((List.range R).map h) / c = 0 ↔
      CondIndep ((List.range R).map f) ((List.range R).map g) ((List.range R).map h)) ∧
    (cmi ((List.range R).map f) ((List.range R).map g) ((List.range R).map h) / c =
      condEntropy ((List.range R).map f) ((List.range R).map h) / c ↔
      ∀ i < R, ∀ j < R, g i = g j → h i = h j → f i = f j) := by
  obtain ⟨hle, heq⟩ := cmi_map_le_cond (List.range R) f g h
  refine ⟨div_le_div_of_nonneg_right hle hc.le, ?_, ?_⟩
  · rw [eqp_zero hc]; exact cmi_map_eq_zero_iff _ _ _ _
  · rw [div_left_inj' hc.ne', heq]
    simp only [List.mem_range, Prod.mk.injEq, and_imp]

/-- **C79** Transfer entropy is zero exactly when the future of the target is independent of the history of the source given the history of
the target (rows as embedded), never above the conditional entropy of the future given the target's history, and equal to it exactly when
the two histories together determine the future. -/
theorem C79_te (source dest : List Int) (l k s : Nat) (hs : 0 < s) (hl : 0 < l) (hk : 0 < k) (hm : max k l * s < source.length)
    (hlen : source.length = dest.length) (hov : dest.length < 2 ^ 32) (b : Base) (hb : b.Std) :
    let n := dest.length
    let m := max k l
    ∃ t, discreteTE source dest (teParams l k s) (some (.int 0)) none b = .ok t ∧
      t ≤ condEntropy (futRows dest n m s) (histRows dest n m s k) / b.ln ∧
      (t = 0 ↔ CondIndep (futRows dest n m s) (histRows source n m s l) (histRows dest n m s k)) ∧
      (t = condEntropy (futRows dest n m s) (histRows dest n m s k) / b.ln ↔
        ∀ i < numRows n m s, ∀ j < numRows n m s, histRow source m s l i = histRow source m s l j →
          histRow dest m s k i = histRow dest m s k j → dest.getD ((m + i) * s) 0 = dest.getD ((m + j) * s) 0) := by
  intro n m
  refine ⟨_, C24_te_is_textbook source dest l k s hs hl hk hm hlen hov b hb.valid, ?_⟩
  obtain ⟨e1, e2, e3⟩ := eqp_te (numRows n m s) (fun i => [dest.getD ((m + i) * s) default]) (histRow source m s l) (histRow dest m s k)
    hb.ln_pos
  refine ⟨e1, e2, e3.trans ?_⟩
  simp only [List.cons.injEq, and_true]
  rfl

example := C79_te [0, 1, 1, 0, 1] [2, 3, 2, 3, 3] 1 2 1 (by decide) (by decide) (by decide) (by decide) rfl (by decide) (.num 2)
  (by norm_num [Base.Std])

/-- **C79** The same for conditional transfer entropy, with the condition's history added to the target's. -/
theorem C79_cte (source dest cond : List Int) (l k c s : Nat) (hs : 0 < s) (hl : 0 < l) (hk : 0 < k) (hc : 0 < c)
    (hm : max (max k l) c * s < source.length) (hlen : source.length = dest.length) (hlen2 : cond.length = dest.length)
    (hov : dest.length < 2 ^ 32) (b : Base) (hb : b.Std) :
    let n := dest.length
    let m := max (max k l) c
    let past := (histRows dest n m s k).zip (histRows cond n m s c)
    ∃ t, discreteCTE source dest (some cond) (teParams l k s) (.int c) (some (.int 0)) none b = .ok t ∧
      t ≤ condEntropy (futRows dest n m s) past / b.ln ∧
      (t = 0 ↔ CondIndep (futRows dest n m s) (histRows source n m s l) past) ∧
      (t = condEntropy (futRows dest n m s) past / b.ln ↔
        ∀ i < numRows n m s, ∀ j < numRows n m s, histRow source m s l i = histRow source m s l j →
          histRow dest m s k i = histRow dest m s k j → histRow cond m s c i = histRow cond m s c j →
          dest.getD ((m + i) * s) 0 = dest.getD ((m + j) * s) 0) := by
  intro n m past
  obtain ⟨t, ht, hv, -⟩ := C24_cte_is_textbook source dest cond l k c s hs hl hk hc hm hlen hlen2 hov b hb
  refine ⟨t, ht, ?_⟩
  obtain ⟨e1, e2, e3⟩ := eqp_te (numRows n m s) (fun i => [dest.getD ((m + i) * s) default]) (histRow source m s l)
    (fun i => (histRow dest m s k i, histRow cond m s c i)) hb.ln_pos
  have hp : past = (List.range (numRows n m s)).map (fun i => (histRow dest m s k i, histRow cond m s c i)) := zip_map_map _ _ _
  rw [hv]
  change cmi _ _ past / b.ln ≤ _ ∧ _
  rw [show Spec.cmi (futRows dest dest.length (max (max k l) c) s) (histRows source dest.length (max (max k l) c) s l)
        ((histRows dest dest.length (max (max k l) c) s k).zip (histRows cond dest.length (max (max k l) c) s c)) =
      cmi (futRows dest n m s) (histRows source n m s l) past from rfl, hp]
  refine ⟨e1, e2, e3.trans ?_⟩
  simp only [List.cons.injEq, and_true, Prod.mk.injEq, and_imp]
  rfl

example := C79_cte [0, 1, 1, 0, 1] [2, 3, 2, 3, 3] [0, 0, 0, 1, 1] 1 2 1 1 (by decide) (by decide) (by decide) (by decide) (by decide)
  rfl rfl (by decide) (.num 2) (by norm_num [Base.Std])

/-- **C79** The same for vector-valued discrete series. -/
theorem C79_te_vector (source dest : List (List Int)) (l k s : Nat) (hs : 0 < s) (hl : 0 < l) (hk : 0 < k)
    (hm : max k l * s < source.length) (hlen : source.length = dest.length) (hov : dest.length < 2 ^ 32) (p q : Nat)
    (hx : VecShape p source) (hy : VecShape q dest) (b : Base) (hb : b.Std) :
    let n := dest.length
    let m := max k l
    ∃ t, discreteTEVec source dest (teParams l k s) (some (.int 0)) none b = .ok t ∧
      t ≤ condEntropy (futRows dest n m s) (histRows dest n m s k) / b.ln ∧
      (t = 0 ↔ CondIndep (futRows dest n m s) (histRows source n m s l) (histRows dest n m s k)) ∧
      (t = condEntropy (futRows dest n m s) (histRows dest n m s k) / b.ln ↔
        ∀ i < numRows n m s, ∀ j < numRows n m s, histRow source m s l i = histRow source m s l j →
          histRow dest m s k i = histRow dest m s k j → dest.getD ((m + i) * s) [] = dest.getD ((m + j) * s) []) := by
  intro n m
  obtain ⟨t, ht, hv, -⟩ := C72_te_is_textbook source dest l k s hs hl hk hm hlen hov p q hx hy b hb
  refine ⟨t, ht, ?_⟩
  obtain ⟨e1, e2, e3⟩ := eqp_te (numRows n m s) (fun i => [dest.getD ((m + i) * s) default]) (histRow source m s l) (histRow dest m s k)
    hb.ln_pos
  rw [hv]
  refine ⟨e1, e2, e3.trans ?_⟩
  simp only [List.cons.injEq, and_true]
  rfl

example := C79_te_vector [[0, 1], [1, 1], [0, 0], [0, 1], [1, 0]] [[2], [3], [2], [3], [3]] 1 2 1 (by decide) (by decide) (by decide)
  (by decide) rfl (by decide) 2 1 ⟨by decide, by decide⟩ ⟨by decide, by decide⟩ (.num 2) (by norm_num [Base.Std])

/-- **C79** Ordinal mutual information of tie-free series is zero exactly when the ordinal patterns are empirically independent, and equal to
the first series' ordinal entropy exactly when the patterns of the second determine those of the first. -/
theorem C79_ordinal_mi {α : Type} [LinearOrder α] [Inhabited α] (q : Argsort α) (x y : List α) (hxy : x.length = y.length) (d s : Nat)
    (hd : 1 ≤ d) (hs : 1 ≤ s) (hn : (d - 1) * s < x.length) (hov : x.length < 2 ^ 32) (stable : Bool)
    (htx : TieFree x d s) (hty : TieFree y d s) (b : Base) (hb : b.Std) :
    ∃ I H, ordMI q [x, y] { dim := .int d, step := .int s, stable := stable } (some 0) b = .ok I ∧
      ordEntropy q [.arr1 x] { dim := .int d, step := .int s, stable := stable } b = .ok H ∧
      (I = 0 ↔ ∀ u ∈ ordPatterns x d s, ∀ v ∈ ordPatterns y d s,
        freq ((ordPatterns x d s).zip (ordPatterns y d s)) (u, v) = freq (ordPatterns x d s) u * freq (ordPatterns y d s) v) ∧
      (I = H ↔ Determines (ordPatterns y d s) (ordPatterns x d s)) := by
  have hl : (ordPatterns x d s).length = (ordPatterns y d s).length := by simp [ordPatterns, delayVectors, hxy]
  refine ⟨_, _, C56_ordinal_mi_is_textbook q x y hxy d s hd hs hn hov stable htx hty b hb,
    C28_ordinal_entropy_is_permutation_entropy q x d s hd hs hn htx stable b hb.valid, ?_, ?_⟩
  · rw [eqp_zero hb.ln_pos]; exact mi_eq_zero_iff _ _ hl
  · rw [div_left_inj' hb.ln_pos.ne']; exact mi_eq_entropy_iff _ _ hl

example := C79_ordinal_mi (α := Int) stableSort [0, 3, 1, 2, 5, 4] [2, 3, 1, 5, 0, 1] rfl 2 1 (by decide) (by decide) (by decide) (by decide)
  false (by unfold TieFree delayVectors; decide) (by unfold TieFree delayVectors; decide) (.num 2) (by norm_num [Base.Std])

/-- **C79** Ordinal transfer entropy of tie-free series is zero exactly when the target's next pattern is independent of the source's past
patterns given the target's own past patterns. -/
theorem C79_ordinal_te {α : Type} [LinearOrder α] [Inhabited α] (q : Argsort α) (x y : List α) (hxy : x.length = y.length)
    (d s l k : Nat) (hd : 1 ≤ d) (hd' : d ≤ 20) (hs : 1 ≤ s) (hl : 0 < l) (hk : 0 < k)
    (hn : (d - 1) * s + max k l * s < x.length) (hov : x.length < 2 ^ 32) (stable : Bool)
    (htx : TieFree x d s) (hty : TieFree y d s) (b : Base) (hb : b.Std) :
    let N := x.length - (d - 1) * s
    ∃ t, ordTE q x y (ordTEParams d l k s stable) (some (.int 0)) none b = .ok t ∧
      t ≤ condEntropy (futRows (ordPatterns y d s) N (max k l) s) (histRows (ordPatterns y d s) N (max k l) s k) / b.ln ∧
      (t = 0 ↔ CondIndep (futRows (ordPatterns y d s) N (max k l) s) (histRows (ordPatterns x d s) N (max k l) s l)
        (histRows (ordPatterns y d s) N (max k l) s k)) := by
  intro N
  refine ⟨_, C57_ordinal_te_is_textbook q x y hxy d s l k hd hd' hs hl hk hn hov stable htx hty b hb.valid, ?_⟩
  obtain ⟨e1, e2, -⟩ := eqp_te (numRows N (max k l) s) (fun i => [(ordPatterns y d s).getD ((max k l + i) * s) default])
    (histRow (ordPatterns x d s) (max k l) s l) (histRow (ordPatterns y d s) (max k l) s k) hb.ln_pos
  exact ⟨e1, e2⟩

example := C79_ordinal_te (α := Int) stableSort [0, 3, 1, 2, 5, 4] [2, 3, 1, 5, 0, 1] rfl 2 1 1 2 (by decide) (by decide) (by decide)
  (by decide) (by decide) (by decide) (by decide) false (by unfold TieFree delayVectors; decide) (by unfold TieFree delayVectors; decide)
  (.num 2) (by norm_num [Base.Std])

/-- **C79** The Jensen–Shannon divergence of `n` samples reaches its largest value `log_b n` exactly when no two samples share a symbol. -/
theorem C79_jsd_max (xss : List (List Int)) (hne : xss ≠ []) (hx : ∀ xs ∈ xss, xs ≠ []) (b : Base) (hb : b.Std) :
    ∃ v, jsdDiscrete .discrete b (xss.map .arr1) = .ok v ∧
      (v = Real.log xss.length / b.ln ↔ xss.Pairwise (fun xs ys => ∀ a ∈ xs, a ∉ ys)) := by
  refine ⟨_, C37_jsd_value xss hne hx b hb.valid, ?_⟩
  rw [div_left_inj' hb.ln_pos.ne']
  exact jsd_eq_log_iff xss hne hx

/-! ### the hypotheses can be met, and both sides of the equivalences occur -/

/-- two fair coins are independent given a constant; a coin and its copy are not -/
example : CondIndep [(0 : Int), 0, 1, 1] [(0 : Int), 1, 0, 1] [(5 : Int), 5, 5, 5] ∧
    ¬ CondIndep [(0 : Int), 1] [(0 : Int), 1] [(5 : Int), 5] ∧ Determines [(0 : Int), 1, 2] [(7 : Int), 8, 7] ∧
    ¬ Determines [(7 : Int), 8, 7] [(0 : Int), 1, 2] := by
  refine ⟨?_, ?_, by unfold Determines; decide, by unfold Determines; decide⟩
  · intro x hx y hy z hz
    simp only [List.mem_cons, List.not_mem_nil, or_false, or_self] at hx hy hz
    subst hz
    rcases hx with rfl | rfl | rfl | rfl <;> rcases hy with rfl | rfl | rfl | rfl <;> norm_num [freq, cnt]
  · intro h
    have := h 0 (by simp) 1 (by simp) 5 (by simp)
    norm_num [freq, cnt] at this

example : ([[0, 1], [2], [3, 3]] : List (List Int)).Pairwise (fun xs ys => ∀ a ∈ xs, a ∉ ys) := by decide

example : Factorises 4 [[(0 : Int), 0, 1, 1], [(0 : Int), 1, 0, 1]] ∧ ¬ IsConst [(0 : Int), 0, 1, 1] := by
  refine ⟨?_, by unfold IsConst; decide⟩
  intro v hv
  match v, hv with
  | [a, c], .cons ha (.cons hc .nil) =>
    simp only [List.mem_cons, List.not_mem_nil, or_false] at ha hc
    rcases ha with rfl | rfl | rfl | rfl <;> rcases hc with rfl | rfl | rfl | rfl <;>
      norm_num [freq, cnt, rows, row, List.range_succ]

end Verif
