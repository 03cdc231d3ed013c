import Verif.Props.KernelCMI
import Verif.Props.TE3

/-!
# C61: kernel transfer entropy
-/

namespace Verif

open Spec

/-- an array from a row function -/
def rowsArr (R c : Nat) (f : Nat → List ℝ) : Arr := ⟨c, (List.range R).map f⟩

theorem rowsArr_aligned {R c : Nat} {f : Nat → List ℝ} (hf : ∀ i, (f i).length = c) :
    (rowsArr R c f).rows.length = R ∧ Points (rowsArr R c f).rows (rowsArr R c f).cols := by
  refine ⟨by simp [rowsArr], ?_⟩
  intro x hx
  obtain ⟨i, _, rfl⟩ := List.mem_map.1 hx
  exact hf i

theorem rowsArr_getD {R c t : Nat} {f : Nat → List ℝ} (ht : t < R) : (rowsArr R c f).rows.getD t [] = f t := by
  simp [rowsArr, List.getD_eq_getElem?_getD, ht]

theorem ofRows_range {R c : Nat} (hR : 0 < R) {f : Nat → List ℝ} (hf : ∀ i, (f i).length = c) :
    Arr.ofRows ((List.range R).map f) = rowsArr R c f := by
  obtain ⟨R', rfl⟩ : ∃ R', R = R' + 1 := ⟨R - 1, by omega⟩
  unfold Arr.ofRows rowsArr
  congr 1
  rw [List.range_succ_eq_map]
  simp [hf]

/-- density of stacked row functions -/
theorem kde_rows {R : Nat} (hR : 0 < R) (parts : List (Nat × (Nat → List ℝ))) (hp : ∀ p ∈ parts, ∀ i, (p.2 i).length = p.1)
    {F : Nat → List ℝ} (hF : ∀ i, F i = (parts.map (fun p => p.2 i)).flatten) {h : ℝ} (hh : 0 < h) (w : Int) :
    kdeDensity (Arr.ofRows ((List.range R).map F)) none (boxCfg h w) =
      .ok ((List.range R).map (fun t => (neighbours R h (parts.map (fun p => (List.range R).map p.2)) t : ℝ) /
        (R * h ^ (parts.map Prod.fst).sum))) := by
  have hc : ∀ i, (F i).length = (parts.map Prod.fst).sum := by
    intro i
    rw [hF, List.length_flatten, List.map_map]
    congr 1
    exact List.map_congr_left fun p hp' => hp p hp' i
  rw [ofRows_range hR hc]
  have hal : Aligned R (parts.map (fun p => rowsArr R p.1 p.2)) := by
    intro a ha
    obtain ⟨p, hp', rfl⟩ := List.mem_map.1 ha
    exact rowsArr_aligned (hp p hp')
  have key := kde_joint hal hh w
  have e1 : ((parts.map (fun p => rowsArr R p.1 p.2)).map Arr.cols).sum = (parts.map Prod.fst).sum := by
    rw [List.map_map]; rfl
  have e2 : (parts.map (fun p => rowsArr R p.1 p.2)).map Arr.rows = parts.map (fun p => (List.range R).map p.2) := by
    rw [List.map_map]; rfl
  have e3 : (List.range R).map (jrow (parts.map (fun p => rowsArr R p.1 p.2))) = (List.range R).map F := by
    refine List.map_congr_left fun t ht => ?_
    have ht' := List.mem_range.1 ht
    rw [hF]
    unfold jrow
    rw [List.map_map]
    congr 1
    exact List.map_congr_left fun p _ => rowsArr_getD ht'
  rw [e1, e2, e3] at key
  exact key

/-- local log-ratio of the four densities -/
theorem kernelTECalc_box {R : Nat} (hR : 2 ≤ R) {q l k c : Nat} {f g d z : Nat → List ℝ} (hf : ∀ i, (f i).length = q)
    (hg : ∀ i, (g i).length = l) (hd : ∀ i, (d i).length = k) (hz : ∀ i, (z i).length = c) {h : ℝ} (hh : 0 < h) (w : Int)
    {b : Base} (hb : b.Valid) :
    kernelTECalc (boxCfg h w) b
      { joint := (List.range R).map (fun i => g i ++ d i ++ f i ++ z i)
        destPast := (List.range R).map (fun i => d i ++ z i)
        marginal1 := (List.range R).map (fun i => g i ++ d i ++ z i)
        marginal2 := (List.range R).map (fun i => d i ++ f i ++ z i) } =
      .ok ((List.range R).map (fun t => Real.log (
        ((neighbours R h [(List.range R).map f, (List.range R).map g, (List.range R).map (fun i => d i ++ z i)] t : ℝ) *
          neighbours R h [(List.range R).map (fun i => d i ++ z i)] t) /
        (neighbours R h [(List.range R).map f, (List.range R).map (fun i => d i ++ z i)] t *
          neighbours R h [(List.range R).map g, (List.range R).map (fun i => d i ++ z i)] t)) / b.ln)) := by
  have hR0 : 0 < R := by omega
  have hR' : (0 : ℝ) < R := by exact_mod_cast hR0
  have hdz : ∀ i, (d i ++ z i).length = k + c := by intro i; simp [hd, hz]
  unfold kernelTECalc
  rw [kde_rows hR0 [(l, g), (k, d), (q, f), (c, z)] (by simp [hf, hg, hd, hz]) (by intro i; simp) hh w,
    kde_rows hR0 [(k + c, fun i => d i ++ z i)] (by simp [hd, hz]) (by intro i; simp) hh w,
    kde_rows hR0 [(l, g), (k, d), (c, z)] (by simp [hg, hd, hz]) (by intro i; simp) hh w,
    kde_rows hR0 [(k, d), (q, f), (c, z)] (by simp [hf, hd, hz]) (by intro i; simp) hh w]
  simp only [bind, Except.bind, List.length_map, List.length_range, List.map_cons, List.map_nil, List.sum_cons, List.sum_nil]
  -- the neighbours of the concatenated destination and condition history
  have hget : ∀ (u : Nat → List ℝ) t, t < R → ((List.range R).map u).getD t [] = u t := by
    intro u t ht; simp [List.getD_eq_getElem?_getD, ht]
  have hdz' : ∀ s < R, ∀ t < R, (InBox h (((List.range R).map (fun i => d i ++ z i)).getD t [])
      (((List.range R).map (fun i => d i ++ z i)).getD s []) ↔
      InBox h (((List.range R).map d).getD t []) (((List.range R).map d).getD s []) ∧
      InBox h (((List.range R).map z).getD t []) (((List.range R).map z).getD s [])) := by
    intro s hs t ht
    rw [hget _ t ht, hget _ s hs, hget _ t ht, hget _ s hs, hget _ t ht, hget _ s hs, inBox_append (by rw [hd, hd]) (by rw [hz, hz])]
  have nb : ∀ (V W : List (List (List ℝ))) t, t < R →
      (∀ s < R, (∀ X ∈ V, InBox h (X.getD t []) (X.getD s [])) ↔ (∀ X ∈ W, InBox h (X.getD t []) (X.getD s []))) →
      neighbours R h V t = neighbours R h W t := by
    intro V W t _ H
    unfold neighbours
    congr 1
    refine List.filter_congr fun s hs => ?_
    simp only [decide_eq_decide]
    exact H s (List.mem_range.1 hs)
  rw [mapM_ok (g := fun t => Real.log (
        ((neighbours R h [(List.range R).map f, (List.range R).map g, (List.range R).map (fun i => d i ++ z i)] t : ℝ) *
          neighbours R h [(List.range R).map (fun i => d i ++ z i)] t) /
        (neighbours R h [(List.range R).map f, (List.range R).map (fun i => d i ++ z i)] t *
          neighbours R h [(List.range R).map g, (List.range R).map (fun i => d i ++ z i)] t)) / b.ln)]
  · simp only [pure, Except.pure]
    rw [if_neg (by omega)]
  · intro t ht
    have ht' := List.mem_range.1 ht
    have g1 : ∀ F : Nat → ℝ, ((List.range R).map F).getD t 0 = F t := by
      intro F; simp [List.getD_eq_getElem?_getD, ht']
    rw [g1, g1, g1, g1]
    have n1 : neighbours R h [(List.range R).map g, (List.range R).map d, (List.range R).map f, (List.range R).map z] t =
        neighbours R h [(List.range R).map f, (List.range R).map g, (List.range R).map (fun i => d i ++ z i)] t :=
      nb _ _ t ht' (fun s hs => by
        simp only [List.mem_cons, List.not_mem_nil, or_false, forall_eq_or_imp, forall_eq, hdz' s hs t ht']; tauto)
    have n2 : neighbours R h [(List.range R).map g, (List.range R).map d, (List.range R).map z] t =
        neighbours R h [(List.range R).map g, (List.range R).map (fun i => d i ++ z i)] t :=
      nb _ _ t ht' (fun s hs => by
        simp only [List.mem_cons, List.not_mem_nil, or_false, forall_eq_or_imp, forall_eq, hdz' s hs t ht'])
    have n3 : neighbours R h [(List.range R).map d, (List.range R).map f, (List.range R).map z] t =
        neighbours R h [(List.range R).map f, (List.range R).map (fun i => d i ++ z i)] t :=
      nb _ _ t ht' (fun s hs => by
        simp only [List.mem_cons, List.not_mem_nil, or_false, forall_eq_or_imp, forall_eq, hdz' s hs t ht']; tauto)
    rw [n1, n2, n3]
    have p1 : (0 : ℝ) < neighbours R h [(List.range R).map f, (List.range R).map g, (List.range R).map (fun i => d i ++ z i)] t := by
      exact_mod_cast neighbours_pos hh.le _ ht'
    have p2 : (0 : ℝ) < neighbours R h [(List.range R).map g, (List.range R).map (fun i => d i ++ z i)] t := by
      exact_mod_cast neighbours_pos hh.le _ ht'
    have p3 : (0 : ℝ) < neighbours R h [(List.range R).map f, (List.range R).map (fun i => d i ++ z i)] t := by
      exact_mod_cast neighbours_pos hh.le _ ht'
    have p4 : (0 : ℝ) < neighbours R h [(List.range R).map (fun i => d i ++ z i)] t := by
      exact_mod_cast neighbours_pos hh.le _ ht'
    rw [logBase_ok hb (by positivity)]
    simp only [zeroIfNonFinite]
    congr 3
    have e : h ^ (l + (k + (q + (c + 0)))) * h ^ (k + c + 0) = h ^ (k + (q + (c + 0))) * h ^ (l + (k + (c + 0))) := by
      rw [← pow_add, ← pow_add]; congr 1; omega
    rw [div_mul_div_comm, div_mul_div_comm, show (R * h ^ (l + (k + (q + (c + 0)))) * (R * h ^ (k + c + 0)) : ℝ) =
      R * R * (h ^ (l + (k + (q + (c + 0)))) * h ^ (k + c + 0)) by ring, e]
    field_simp

/-- local values of the kernel transfer entropy -/
theorem kernelTELocal_box (source dest : List ℝ) (l k s : Nat) (hs : 0 < s) (hl : 0 < l) (hk : 0 < k)
    (hm : max k l * s < source.length) (hlen : source.length = dest.length) (hR : 2 ≤ numRows dest.length (max k l) s)
    (h : ℝ) (hh : 0 < h) (w : Int) (b : Base) (hb : b.Valid) (rnd : SrcRandom) (hr : rnd.Lawful) :
    let R := numRows dest.length (max k l) s
    let F := futRows dest dest.length (max k l) s
    let G := (srcSel rnd R).map (histRow source (max k l) s l)
    let D := histRows dest dest.length (max k l) s k
    kernelTELocal source dest (teParams l k s) (some (.int 0)) none (boxCfg h w) b rnd =
      .ok ((List.range R).map (fun t => Real.log (((neighbours R h [F, G, D] t : ℝ) * neighbours R h [D] t) /
        (neighbours R h [F, D] t * neighbours R h [G, D] t)) / b.ln)) := by
  intro R F G D
  have ho := teObservations_ok source dest l k s hs hl hk hm hlen hr
  rw [srcRows_eq _ _ _ _ _ hr, histRows, futRows] at ho
  simp only [kernelTELocal, teInit_zero hlen, bind, Except.bind, teParams, ho, teSpaces_ok]
  have key := kernelTECalc_box hR (q := 1) (l := l) (k := k) (c := 0)
    (f := fun i : Nat => [dest.getD ((max k l + i) * s) default])
    (g := fun i => histRow source (max k l) s l ((srcSel rnd R).getD i 0)) (d := histRow dest (max k l) s k)
    (z := fun _ => []) (by simp) (by simp [histRow]) (by simp [histRow]) (by simp) hh w hb
  simp only [List.append_nil] at key
  rw [key, ← srcRows_eq _ _ _ _ _ hr]
  rfl

/-- **C61** Kernel transfer entropy is the box-kernel conditional mutual information of the future of the destination and
the history of the source given the history of the destination. -/
theorem C61_te_value (source dest : List ℝ) (l k s : Nat) (hs : 0 < s) (hl : 0 < l) (hk : 0 < k)
    (hm : max k l * s < source.length) (hlen : source.length = dest.length) (hR : 2 ≤ numRows dest.length (max k l) s)
    (h : ℝ) (hh : 0 < h) (w : Int) (b : Base) (hb : b.Valid) (rnd : SrcRandom) (hr : rnd.Lawful) :
    kernelTE source dest (teParams l k s) (some (.int 0)) none (boxCfg h w) b rnd =
      .ok (boxCMI (numRows dest.length (max k l) s) h (futRows dest dest.length (max k l) s)
        ((srcSel rnd (numRows dest.length (max k l) s)).map (histRow source (max k l) s l))
        (histRows dest dest.length (max k l) s k) / b.ln) := by
  unfold kernelTE
  rw [kernelTELocal_box source dest l k s hs hl hk hm hlen hR h hh w b hb rnd hr]
  simp only [bind, Except.bind]
  rw [meanOrNan_ok (by simp; omega), mean_map_div]
  rfl

example := C61_te_value [1, 0, 1, 1, 0] [0, 1, 0, 1, 1] 2 1 1 (by decide) (by decide) (by decide) (by decide) rfl (by decide) (3/2) (by norm_num) 1 (.num 2) (by norm_num [Base.Valid]) {} lawful_none

/-- Without randomisation the source histories are those of the specification. -/
theorem C61_te_value_plain (source dest : List ℝ) (l k s : Nat) (hs : 0 < s) (hl : 0 < l) (hk : 0 < k)
    (hm : max k l * s < source.length) (hlen : source.length = dest.length) (hR : 2 ≤ numRows dest.length (max k l) s)
    (h : ℝ) (hh : 0 < h) (w : Int) (b : Base) (hb : b.Valid) :
    kernelTE source dest (teParams l k s) (some (.int 0)) none (boxCfg h w) b =
      .ok (boxCMI (numRows dest.length (max k l) s) h (futRows dest dest.length (max k l) s)
        (histRows source dest.length (max k l) s l) (histRows dest dest.length (max k l) s k) / b.ln) := by
  rw [C61_te_value source dest l k s hs hl hk hm hlen hR h hh w b hb {} lawful_none, srcSel_none]
  rfl

example := C61_te_value_plain [1, 0, 1, 1, 0] [0, 1, 0, 1, 1] 2 1 1 (by decide) (by decide) (by decide) (by decide) rfl (by decide) (3/2) (by norm_num) 1 (.num 2) (by norm_num [Base.Valid])

/-- bounds of the box-kernel conditional mutual information -/
theorem boxCMI_abs_le {n : Nat} (hn : 0 < n) {h : ℝ} (hh : 0 < h) (X Y Z : List (List ℝ)) :
    |boxCMI n h X Y Z| ≤ Real.log n := by
  have hne : List.range n ≠ [] := by simp; omega
  have hn' : (0 : ℝ) < n := by exact_mod_cast hn
  rw [abs_le]
  unfold boxCMI
  refine mean_bounds hne fun t ht => ?_
  have ht' := List.mem_range.1 ht
  have p1 : (1 : ℝ) ≤ neighbours n h [X, Z] t := by exact_mod_cast neighbours_pos hh.le _ ht'
  have p2 : (1 : ℝ) ≤ neighbours n h [Y, Z] t := by exact_mod_cast neighbours_pos hh.le _ ht'
  have p3 : (1 : ℝ) ≤ neighbours n h [X, Y, Z] t := by exact_mod_cast neighbours_pos hh.le _ ht'
  have p4 : (1 : ℝ) ≤ neighbours n h [Z] t := by exact_mod_cast neighbours_pos hh.le _ ht'
  have q1 : (neighbours n h [X, Y, Z] t : ℝ) ≤ neighbours n h [X, Z] t := by
    exact_mod_cast neighbours_anti (by simp) t
  have q2 : (neighbours n h [X, Z] t : ℝ) ≤ neighbours n h [Z] t := by
    exact_mod_cast neighbours_anti (by simp) t
  have q3 : (neighbours n h [Y, Z] t : ℝ) ≤ n := by exact_mod_cast neighbours_le n h _ t
  have q4 : (neighbours n h [Z] t : ℝ) ≤ n := by exact_mod_cast neighbours_le n h _ t
  constructor
  · rw [← Real.log_inv]
    apply Real.log_le_log (by positivity)
    rw [inv_eq_one_div, div_le_div_iff₀ hn' (by positivity)]
    nlinarith [mul_le_mul q2 q3 (by linarith) (by linarith), mul_le_mul p3 (le_refl ((neighbours n h [Z] t : ℝ) * n))
      (by positivity) (by linarith)]
  · apply Real.log_le_log (by positivity)
    rw [div_le_iff₀ (by positivity)]
    nlinarith [mul_le_mul q1 q4 (by linarith) (by linarith), mul_le_mul p2 (le_refl ((neighbours n h [X, Z] t : ℝ) * n))
      (by positivity) (by linarith)]

/-- The estimate is finite and lies within ± the logarithm of the number of embedded rows. -/
theorem C61_te_bounds (source dest : List ℝ) (l k s : Nat) (hs : 0 < s) (hl : 0 < l) (hk : 0 < k)
    (hm : max k l * s < source.length) (hlen : source.length = dest.length) (hR : 2 ≤ numRows dest.length (max k l) s)
    (h : ℝ) (hh : 0 < h) (w : Int) (b : Base) (hb : b.Std) (rnd : SrcRandom) (hr : rnd.Lawful) :
    ∃ v, kernelTE source dest (teParams l k s) (some (.int 0)) none (boxCfg h w) b rnd = .ok v ∧
      |v| ≤ Real.log (numRows dest.length (max k l) s) / b.ln := by
  refine ⟨_, C61_te_value source dest l k s hs hl hk hm hlen hR h hh w b hb.valid rnd hr, ?_⟩
  rw [abs_div, abs_of_pos hb.ln_pos]
  exact div_le_div_of_nonneg_right (boxCMI_abs_le (by omega) hh _ _ _) hb.ln_pos.le

example := C61_te_bounds [1, 0, 1, 1, 0] [0, 1, 0, 1, 1] 2 1 1 (by decide) (by decide) (by decide) (by decide) rfl (by decide) (3/2) (by norm_num) 1 (.num 2) (by norm_num [Base.Std]) {} lawful_none

theorem kernelTECalc_one_row {q l k c : Nat} {f g d z : Nat → List ℝ} (hf : ∀ i, (f i).length = q)
    (hg : ∀ i, (g i).length = l) (hd : ∀ i, (d i).length = k) (hz : ∀ i, (z i).length = c) {h : ℝ} (hh : 0 < h) (w : Int)
    {b : Base} (hb : b.Valid) :
    kernelTECalc (boxCfg h w) b
      { joint := (List.range 1).map (fun i => g i ++ d i ++ f i ++ z i)
        destPast := (List.range 1).map (fun i => d i ++ z i)
        marginal1 := (List.range 1).map (fun i => g i ++ d i ++ z i)
        marginal2 := (List.range 1).map (fun i => d i ++ f i ++ z i) } = .error .typeError := by
  unfold kernelTECalc
  rw [kde_rows one_pos [(l, g), (k, d), (q, f), (c, z)] (by simp [hf, hg, hd, hz]) (by intro i; simp) hh w,
    kde_rows one_pos [(k + c, fun i => d i ++ z i)] (by simp [hd, hz]) (by intro i; simp) hh w,
    kde_rows one_pos [(l, g), (k, d), (c, z)] (by simp [hg, hd, hz]) (by intro i; simp) hh w,
    kde_rows one_pos [(k, d), (q, f), (c, z)] (by simp [hf, hd, hz]) (by intro i; simp) hh w]
  have np : ∀ vs (e : Nat), (0 : ℝ) < (neighbours 1 h vs 0 : ℝ) / ((1 : ℕ) * h ^ e) := fun vs e => by
    have : (0 : ℝ) < neighbours 1 h vs 0 := by exact_mod_cast neighbours_pos hh.le vs one_pos
    positivity
  simp only [bind, Except.bind, List.length_map, List.length_range, List.range_one, List.map_cons, List.map_nil,
    List.length_cons, List.length_nil, zero_add, List.mapM_cons, List.mapM_nil, List.getD_cons_zero]
  rw [logBase_ok hb (div_pos (mul_pos (np _ _) (np _ _)) (mul_pos (np _ _) (np _ _)))]
  simp [zeroIfNonFinite, pure, Except.pure]

/-- One embedded row: the densities are scalars and the item assignment is a TypeError. -/
theorem C61_one_row_type_error (source dest : List ℝ) (l k s : Nat) (hs : 0 < s) (hl : 0 < l) (hk : 0 < k)
    (hm : max k l * s < source.length) (hlen : source.length = dest.length) (hR : numRows dest.length (max k l) s = 1)
    (h : ℝ) (hh : 0 < h) (w : Int) (b : Base) (hb : b.Valid) :
    kernelTE source dest (teParams l k s) (some (.int 0)) none (boxCfg h w) b = .error .typeError := by
  have ho := teObservations_ok source dest l k s hs hl hk hm hlen lawful_none
  rw [srcRows_eq _ _ _ _ _ lawful_none, histRows, futRows, hR] at ho
  have key := kernelTECalc_one_row (q := 1) (l := l) (k := k) (c := 0)
    (f := fun i : Nat => [dest.getD ((max k l + i) * s) default])
    (g := fun i => histRow source (max k l) s l ((srcSel {} 1).getD i 0)) (d := histRow dest (max k l) s k)
    (z := fun _ => []) (by simp) (by simp [histRow]) (by simp [histRow]) (by simp) hh w hb
  simp only [List.append_nil] at key
  simp only [kernelTE, kernelTELocal, teInit_zero hlen, bind, Except.bind, teParams, ho, teSpaces_ok, key]

example : kernelTE [1, 2, 3] [4, 5, 6] (teParams 2 1 1) (some (.int 0)) none (boxCfg 1) .e = .error .typeError :=
  C61_one_row_type_error [1, 2, 3] [4, 5, 6] 2 1 1 (by simp) (by simp) (by simp) (by simp) rfl (by simp [numRows]) 1 one_pos
    1 .e trivial

/-! ### Conditional transfer entropy -/

/-- **C61** Kernel conditional transfer entropy: the same with the condition's history appended to the destination's. -/
theorem C61_cte_value (source dest cond : List ℝ) (l k c s : Nat) (hs : 0 < s) (hl : 0 < l) (hk : 0 < k) (hc : 0 < c)
    (hm : max (max k l) c * s < source.length) (hlen : source.length = dest.length) (hlen2 : cond.length = dest.length)
    (hR : 2 ≤ numRows dest.length (max (max k l) c) s) (h : ℝ) (hh : 0 < h) (w : Int) (b : Base) (hb : b.Valid) :
    kernelCTE source dest (some cond) (teParams l k s) (.int c) (some (.int 0)) none (boxCfg h w) b =
      .ok (boxCMI (numRows dest.length (max (max k l) c) s) h (futRows dest dest.length (max (max k l) c) s)
        (histRows source dest.length (max (max k l) c) s l)
        ((List.range (numRows dest.length (max (max k l) c) s)).map (fun i =>
          histRow dest (max (max k l) c) s k i ++ histRow cond (max (max k l) c) s c i)) / b.ln) := by
  have ho := cteObservations_ok source dest cond l k c s hs hl hk hc hm hlen hlen2 lawful_none
  rw [srcSel_none, histRows, futRows, histRows] at ho
  have key := kernelTECalc_box hR (q := 1) (l := l) (k := k) (c := c)
    (f := fun i : Nat => [dest.getD ((max (max k l) c + i) * s) default])
    (g := histRow source (max (max k l) c) s l) (d := histRow dest (max (max k l) c) s k)
    (z := histRow cond (max (max k l) c) s c) (by simp) (by simp [histRow]) (by simp [histRow]) (by simp [histRow]) hh w hb
  simp only [kernelCTE, kernelCTELocal, cteInit_zero hlen hlen2, bind, Except.bind, teParams, ho, cteSpaces_ok, key]
  rw [meanOrNan_ok (by simp only [ne_eq, List.map_eq_nil_iff, List.range_eq_nil]; omega), mean_map_div]
  rfl

example := C61_cte_value [1, 0, 1, 1, 0] [0, 1, 0, 1, 1] [2, 2, 0, 0, 2] 2 1 1 1 (by decide) (by decide) (by decide) (by decide) (by decide) rfl rfl (by decide) (3/2) (by norm_num) 1 (.num 2) (by norm_num [Base.Valid])

theorem C61_cte_bounds (source dest cond : List ℝ) (l k c s : Nat) (hs : 0 < s) (hl : 0 < l) (hk : 0 < k) (hc : 0 < c)
    (hm : max (max k l) c * s < source.length) (hlen : source.length = dest.length) (hlen2 : cond.length = dest.length)
    (hR : 2 ≤ numRows dest.length (max (max k l) c) s) (h : ℝ) (hh : 0 < h) (w : Int) (b : Base) (hb : b.Std) :
    ∃ v, kernelCTE source dest (some cond) (teParams l k s) (.int c) (some (.int 0)) none (boxCfg h w) b = .ok v ∧
      |v| ≤ Real.log (numRows dest.length (max (max k l) c) s) / b.ln := by
  refine ⟨_, C61_cte_value source dest cond l k c s hs hl hk hc hm hlen hlen2 hR h hh w b hb.valid, ?_⟩
  rw [abs_div, abs_of_pos hb.ln_pos]
  exact div_le_div_of_nonneg_right (boxCMI_abs_le (by omega) hh _ _ _) hb.ln_pos.le

example := C61_cte_bounds [1, 0, 1, 1, 0] [0, 1, 0, 1, 1] [2, 2, 0, 0, 2] 2 1 1 1 (by decide) (by decide) (by decide) (by decide) (by decide) rfl rfl (by decide) (3/2) (by norm_num) 1 (.num 2) (by norm_num [Base.Std])

/-- a constant row function does not restrict the neighbours -/
theorem neighbours_constant_rows {n : Nat} {h : ℝ} (hh : 0 ≤ h) (X : List (List ℝ)) (v : List ℝ) (hX : ∀ t < n, X.getD t [] = v)
    (vs ws : List (List (List ℝ))) {t : Nat} (ht : t < n) :
    neighbours n h (vs ++ X :: ws) t = neighbours n h (vs ++ ws) t := by
  unfold neighbours
  congr 1
  refine List.filter_congr fun s hs => ?_
  simp only [decide_eq_decide]
  have hs' := List.mem_range.1 hs
  have : InBox h (X.getD t []) (X.getD s []) := by
    rw [hX t ht, hX s hs']
    exact inBox_self hh _
  constructor
  · intro H Y hY
    apply H
    rcases List.mem_append.1 hY with h | h <;> simp [h]
  · intro H Y hY
    rcases List.mem_append.1 hY with h | h
    · exact H Y (by simp [h])
    · rcases List.mem_cons.1 h with rfl | h
      · exact this
      · exact H Y (by simp [h])

/-- a constant second variable has no conditional information -/
theorem boxCMI_constant {n : Nat} {h : ℝ} (hh : 0 < h) (X Y Z : List (List ℝ)) (v : List ℝ)
    (hY : ∀ t < n, Y.getD t [] = v) : boxCMI n h X Y Z = 0 := by
  unfold boxCMI mean
  rw [List.sum_eq_zero, zero_div]
  intro x hx
  obtain ⟨t, ht, rfl⟩ := List.mem_map.1 hx
  have ht' := List.mem_range.1 ht
  have e1 := neighbours_constant_rows hh.le Y v hY [X] [Z] ht'
  have e2 := neighbours_constant_rows hh.le Y v hY [] [Z] ht'
  simp only [List.cons_append, List.nil_append] at e1 e2
  have p1 : (0 : ℝ) < neighbours n h [X, Z] t := by exact_mod_cast neighbours_pos hh.le _ ht'
  have p2 : (0 : ℝ) < neighbours n h [Z] t := by exact_mod_cast neighbours_pos hh.le _ ht'
  rw [e1, e2, div_self (by positivity), Real.log_one]

/-- A constant source transfers nothing. -/
theorem C61_constant_source (a : ℝ) (dest : List ℝ) (l k s : Nat) (hs : 0 < s) (hl : 0 < l) (hk : 0 < k)
    (hm : max k l * s < dest.length) (hR : 2 ≤ numRows dest.length (max k l) s)
    (h : ℝ) (hh : 0 < h) (w : Int) (b : Base) (hb : b.Valid) :
    kernelTE (List.replicate dest.length a) dest (teParams l k s) (some (.int 0)) none (boxCfg h w) b = .ok 0 := by
  rw [C61_te_value_plain _ dest l k s hs hl hk (by simpa using hm) (by simp) hR h hh w b hb]
  rw [boxCMI_constant hh _ _ _ (List.replicate l a), zero_div]
  intro t ht
  have e : (histRows (List.replicate dest.length a) dest.length (max k l) s l).getD t [] =
      histRow (List.replicate dest.length a) (max k l) s l t := by
    simp [histRows, List.getD_eq_getElem?_getD, ht]
  rw [e, List.eq_replicate_iff]
  refine ⟨by simp [histRow], fun x hx => ?_⟩
  obtain ⟨j, hj, rfl⟩ := List.mem_map.1 hx
  have hj' := List.mem_range.1 hj
  have h1 := (lt_numRows hs hm).1 ht
  have h2 : (max k l + t - l + j) * s < dest.length := by
    refine lt_of_le_of_lt (Nat.mul_le_mul_right s ?_) h1
    have := le_max_right k l
    omega
  simp [List.getD_eq_getElem?_getD, List.getElem?_replicate, h2]

example := C61_constant_source 7 [0, 1, 0, 1, 1] 2 1 1 (by decide) (by decide) (by decide) (by decide) (by decide) (3/2) (by norm_num) 1 (.num 2) (by norm_num [Base.Valid])

/-! ### Integer data -/

theorem inBox_int {h : ℝ} (hh2 : h < 2) {u v : List Int} (hl : u.length = v.length)
    (H : InBox h (u.map (fun x : Int => (x : ℝ))) (v.map (fun x : Int => (x : ℝ)))) : u = v := by
  refine List.ext_getElem hl fun i h1 h2 => ?_
  have := H i (by simpa using h1)
  simp only [List.getD_eq_getElem?_getD, List.getElem?_map, List.getElem?_eq_getElem h1, List.getElem?_eq_getElem h2,
    Option.map_some, Option.getD_some] at this
  have h3 : |((u[i] - v[i] : Int) : ℝ)| < 1 := by push_cast; linarith
  rw [← Int.cast_abs] at h3
  have h4 : |u[i] - v[i]| < 1 := by exact_mod_cast h3
  have := Int.abs_lt_one_iff.1 h4
  omega

theorem map_cast_inj {u v : List Int} : u.map (fun x : Int => (x : ℝ)) = v.map (fun x : Int => (x : ℝ)) ↔ u = v :=
  (List.map_injective_iff.2 (fun a b h => by exact_mod_cast h)).eq_iff

/-- on integer rows a box smaller than 2 gives the textbook value -/
theorem boxCMI_int {n : Nat} {h : ℝ} (hh : 0 ≤ h) (hh2 : h < 2) (f g z : Nat → List Int)
    (hf : ∀ s t, (f s).length = (f t).length) (hg : ∀ s t, (g s).length = (g t).length)
    (hz : ∀ s t, (z s).length = (z t).length) :
    boxCMI n h ((List.range n).map (fun i => (f i).map (fun x : Int => (x : ℝ))))
      ((List.range n).map (fun i => (g i).map (fun x : Int => (x : ℝ))))
      ((List.range n).map (fun i => (z i).map (fun x : Int => (x : ℝ)))) =
      Spec.cmi ((List.range n).map f) ((List.range n).map g) ((List.range n).map z) := by
  classical
  rw [boxCMI_separated hh _ _ _ (fun s _ t _ H => by rw [inBox_int hh2 (hf t s) H])
    (fun s _ t _ H => by rw [inBox_int hh2 (hg t s) H]) (fun s _ t _ H => by rw [inBox_int hh2 (hz t s) H])]
  rw [cmi_map, cmi_map]
  have hE : ∀ {α β : Type} [DecidableEq α] [DecidableEq β] (p : Nat → α) (q : Nat → β), (∀ u v, p u = p v ↔ q u = q v) →
      Spec.entropy ((List.range n).map p) = Spec.entropy ((List.range n).map q) :=
    fun p q H => entropy_map_congr _ p q (fun u _ v _ => H u v)
  congr 1
  · congr 1
    · congr 1
      · exact hE _ _ (fun u v => by simp only [Prod.mk.injEq, map_cast_inj])
      · exact hE _ _ (fun u v => by simp only [Prod.mk.injEq, map_cast_inj])
    · exact hE _ _ (fun u v => by simp only [Prod.mk.injEq, map_cast_inj])
  · exact hE _ _ (fun u v => by simp only [map_cast_inj])

theorem histRow_cast (xs : List Int) (m s h i : Nat) :
    histRow (xs.map (fun x : Int => (x : ℝ))) m s h i = (histRow xs m s h i).map (fun x : Int => (x : ℝ)) := by
  unfold histRow
  rw [List.map_map]
  refine List.map_congr_left fun j _ => ?_
  simp only [Function.comp, List.getD_eq_getElem?_getD, List.getElem?_map]
  cases xs[(m + i - h + j) * s]? with
  | none => exact Int.cast_zero.symm
  | some a => rfl

/-- On integer series a box smaller than 2 gives exactly the discrete transfer entropy. -/
theorem C61_integer_data_agrees_with_discrete (source dest : List Int) (l k s : Nat) (hs : 0 < s) (hl : 0 < l) (hk : 0 < k)
    (hm : max k l * s < source.length) (hlen : source.length = dest.length) (hov : dest.length < 2 ^ 32)
    (hR : 2 ≤ numRows dest.length (max k l) s) (h : ℝ) (hh : 0 < h) (hh2 : h < 2) (w : Int) (b : Base) (hb : b.Valid) :
    kernelTE (source.map (fun x : Int => (x : ℝ))) (dest.map (fun x : Int => (x : ℝ))) (teParams l k s) (some (.int 0)) none
      (boxCfg h w) b = discreteTE source dest (teParams l k s) (some (.int 0)) none b := by
  rw [C24_te_is_textbook source dest l k s hs hl hk hm hlen hov b hb,
    C61_te_value_plain _ _ l k s hs hl hk (by simpa using hm) (by simp [hlen]) (by simpa using hR) h hh w b hb]
  congr 2
  rw [List.length_map]
  unfold futRows histRows
  rw [← boxCMI_int hh.le hh2 (n := numRows dest.length (max k l) s)
    (fun i => [dest.getD ((max k l + i) * s) default]) (histRow source (max k l) s l) (histRow dest (max k l) s k)
    (by simp) (by simp [histRow]) (by simp [histRow])]
  have hc : ∀ (xs : List Int) (h : Nat), histRow (xs.map (fun x : Int => (x : ℝ))) (max k l) s h =
      fun i => (histRow xs (max k l) s h i).map (fun x : Int => (x : ℝ)) := fun xs h => funext fun i => histRow_cast _ _ _ _ _
  rw [hc, hc]
  congr 1
  refine List.map_congr_left fun i _ => ?_
  simp only [List.map_cons, List.map_nil, List.getD_eq_getElem?_getD, List.getElem?_map]
  cases dest[(max k l + i) * s]? with
  | none => exact congrArg (fun x => [x]) Int.cast_zero.symm
  | some a => rfl

example : kernelTE ([1, 0, 1, 1, 0].map (fun x : Int => (x : ℝ))) ([0, 1, 0, 1, 1].map (fun x : Int => (x : ℝ))) (teParams 1 1 1)
    (some (.int 0)) none (boxCfg 1) (.num 2) = discreteTE [1, 0, 1, 1, 0] [0, 1, 0, 1, 1] (teParams 1 1 1) (some (.int 0)) none
      (.num 2) :=
  C61_integer_data_agrees_with_discrete [1, 0, 1, 1, 0] [0, 1, 0, 1, 1] 1 1 1 (by simp) (by simp) (by simp) (by simp) rfl
    (by norm_num) (by simp [numRows]) 1 one_pos (by norm_num) 1 (.num 2) (by norm_num [Base.Valid])

/-! ### Guards -/

/-- The same arguments are rejected as by every transfer-entropy estimator: unequal lengths, history lengths or step that
are not positive integers, series not longer than the largest history times the step. -/
theorem C61_argument_errors (source dest : List ℝ) (l k s : Int) (cfg : KdeCfg) (b : Base) (rnd : SrcRandom) :
    (source.length ≠ dest.length →
      kernelTE source dest ⟨.int l, .int k, .int s⟩ (some (.int 0)) none cfg b rnd = .error .valueError) ∧
    (source.length = dest.length → (l ≤ 0 ∨ k ≤ 0 ∨ s ≤ 0) →
      kernelTE source dest ⟨.int l, .int k, .int s⟩ (some (.int 0)) none cfg b rnd = .error .valueError) ∧
    (source.length = dest.length → (source.length : Int) ≤ max k l * s →
      kernelTE source dest ⟨.int l, .int k, .int s⟩ (some (.int 0)) none cfg b rnd = .error .valueError) := by
  refine ⟨?_, ?_, ?_⟩
  · intro h
    simp [kernelTE, kernelTELocal, teInit, h, bind, Except.bind]
  · intro hlen h
    have : [PyArg.int l, PyArg.int k, PyArg.int s].all PyArg.posInt = false := by
      simp [PyArg.posInt]; omega
    simp only [kernelTE, kernelTELocal, teInit_zero hlen, bind, Except.bind, teObservations, this, if_true]
  · intro hlen h
    by_cases hp : [PyArg.int l, PyArg.int k, PyArg.int s].all PyArg.posInt = false
    · simp only [kernelTE, kernelTELocal, teInit_zero hlen, bind, Except.bind, teObservations, hp, if_true]
    · simp only [kernelTE, kernelTELocal, teInit_zero hlen, bind, Except.bind, teObservations, hp, if_false, PyArg.val, h, if_true]
      simp

example := (C61_argument_errors [1, 0, 1, 1] [0, 1, 0, 1, 1] 1 1 1 (boxCfg 1) .e {}).1 (by simp)
example := (C61_argument_errors [1, 0, 1, 1] [0, 1, 0, 1] 1 (-1) 1 (boxCfg 1) .e {}).2.1 rfl (by simp)
example := (C61_argument_errors [1, 0, 1, 1] [0, 1, 0, 1] 2 1 2 (boxCfg 1) .e {}).2.2 rfl (by simp)

/-- A bandwidth that is not a positive number or an unknown kernel is a ValueError. -/
theorem C61_bad_bandwidth_or_kernel (cfg : KdeCfg) (hcfg : cfg.bandwidth.posNumber = none ∨ cfg.kernel = .unsupported)
    (source dest : List ℝ) (l k s : Nat) (hs : 0 < s) (hl : 0 < l) (hk : 0 < k)
    (hm : max k l * s < source.length) (hlen : source.length = dest.length) (b : Base) :
    kernelTE source dest (teParams l k s) (some (.int 0)) none cfg b = .error .valueError := by
  have hk' : ∀ a, kdeDensity a none cfg = .error .valueError := by
    intro a
    unfold kdeDensity
    rcases hcfg with h | h
    · rw [h]
    · cases hp : cfg.bandwidth.posNumber with
      | none => rfl
      | some v => simp [h]
  have ho := teObservations_ok source dest l k s hs hl hk hm hlen lawful_none
  rw [srcRows_eq _ _ _ _ _ lawful_none, histRows, futRows] at ho
  simp only [kernelTE, kernelTELocal, teInit_zero hlen, bind, Except.bind, teParams, ho, teSpaces_ok, kernelTECalc, hk']

example := C61_bad_bandwidth_or_kernel ⟨.num 0, .box, 1⟩ (.inl (by norm_num [PyArg.posNumber])) [1, 0, 1, 1, 0] [0, 1, 0, 1, 1] 2 1 1
  (by decide) (by decide) (by decide) (by decide) rfl .e

end Verif
