import Verif.Lemmas.Kernel

/-! # Lemmas: stacked arrays and neighbour counts -/

namespace Verif

open Spec

theorem inBox_append {h : ℝ} {x x' y y' : List ℝ} (hx : x.length = x'.length) (hy : y.length = y'.length) :
    InBox h (x ++ y) (x' ++ y') ↔ InBox h x x' ∧ InBox h y y' := by
  rw [← withinBox_iff (by simp [hx, hy]), ← withinBox_iff hx, ← withinBox_iff hy]
  unfold withinBox
  rw [List.zip_append hx]
  simp only [List.mem_append]
  constructor
  · intro H
    exact ⟨fun p hp => H p (.inl hp), fun p hp => H p (.inr hp)⟩
  · rintro ⟨h1, h2⟩ p (hp | hp)
    · exact h1 p hp
    · exact h2 p hp

/-- joint row of a list of arrays at time `t` -/
def jrow (as : List Arr) (t : Nat) : List ℝ := (as.map (fun a => a.rows.getD t [])).flatten

/-- all arrays have `n` rows of the right width -/
def Aligned (n : Nat) (as : List Arr) : Prop := ∀ a ∈ as, a.rows.length = n ∧ Points a.rows a.cols

theorem getD_length {a : Arr} {n t : Nat} (ha : a.rows.length = n ∧ Points a.rows a.cols) (ht : t < n) :
    (a.rows.getD t []).length = a.cols := by
  have ht' : t < a.rows.length := by omega
  have : a.rows.getD t [] = a.rows[t] := by simp [List.getD_eq_getElem?_getD, ht']
  rw [this]
  exact ha.2 _ (List.getElem_mem ht')

theorem jrow_length {n : Nat} {as : List Arr} (ha : Aligned n as) {t : Nat} (ht : t < n) :
    (jrow as t).length = (as.map Arr.cols).sum := by
  unfold jrow
  rw [List.length_flatten, List.map_map]
  congr 1
  refine List.map_congr_left fun a h => ?_
  exact getD_length (ha a h) ht

theorem inBox_jrow {n : Nat} {as : List Arr} (ha : Aligned n as) {h : ℝ} {t s : Nat} (ht : t < n) (hs : s < n) :
    InBox h (jrow as t) (jrow as s) ↔ ∀ a ∈ as, InBox h (a.rows.getD t []) (a.rows.getD s []) := by
  induction as with
  | nil => simp [jrow, InBox]
  | cons a as ih =>
    have ha' : Aligned n as := fun b hb => ha b (by simp [hb])
    have e : ∀ t, jrow (a :: as) t = a.rows.getD t [] ++ jrow as t := fun t => by simp [jrow]
    rw [e, e, inBox_append, ih ha']
    · simp
    · rw [getD_length (ha a (by simp)) ht, getD_length (ha a (by simp)) hs]
    · rw [jrow_length ha' ht, jrow_length ha' hs]

theorem list_eq_range {α : Type} (l : List α) (d : α) {n : Nat} (h : l.length = n) :
    l = (List.range n).map (fun t => l.getD t d) := by
  subst h
  refine List.ext_getElem (by simp) fun i h1 h2 => ?_
  simp [List.getD_eq_getElem?_getD, List.getElem?_eq_getElem h1]

theorem stackArrs_ok {n : Nat} {as : List Arr} (hne : as ≠ []) (ha : ∀ a ∈ as, a.rows.length = n) :
    stackArrs as = .ok ⟨(as.map Arr.cols).sum, (List.range n).map (jrow as)⟩ := by
  unfold stackArrs
  have e : as.map Arr.rows = as.map (fun a => (List.range n).map (fun t => a.rows.getD t [])) :=
    List.map_congr_left fun a h => list_eq_range _ _ (ha a h)
  cases as with
  | nil => exact absurd rfl hne
  | cons a as =>
    have := concatRows_ok n (fun t => a.rows.getD t []) (as.map (fun (b : Arr) t => b.rows.getD t []))
    rw [e]
    simp only [List.map_cons, List.map_map, Function.comp_def] at this ⊢
    rw [this]
    rfl

theorem boxCount_range {n : Nat} {g : Nat → List ℝ} {h : ℝ} {x : List ℝ} :
    boxCount ((List.range n).map g) h x =
      ((List.range n).filter (fun s => @decide (InBox h x (g s)) (Classical.propDecidable _))).length := by
  unfold boxCount
  rw [List.filter_map, List.length_map]
  rfl

theorem boxCount_jrow {n : Nat} {as : List Arr} (ha : Aligned n as) {h : ℝ} {t : Nat} (ht : t < n) :
    boxCount ((List.range n).map (jrow as)) h (jrow as t) = neighbours n h (as.map Arr.rows) t := by
  rw [boxCount_range]
  unfold neighbours
  congr 1
  refine List.filter_congr fun s hs => ?_
  simp only [decide_eq_decide]
  rw [inBox_jrow ha ht (List.mem_range.1 hs)]
  simp

theorem boxCount_arr {n : Nat} {a : Arr} (ha : a.rows.length = n) {h : ℝ} {t : Nat} :
    boxCount a.rows h (a.rows.getD t []) = neighbours n h [a.rows] t := by
  conv_lhs => rw [list_eq_range a.rows [] ha]
  rw [boxCount_range]
  unfold neighbours
  congr 1
  refine List.filter_congr fun s hs => ?_
  simp only [decide_eq_decide, List.mem_singleton, forall_eq]
  have hr : ∀ u, u < n → ((List.range n).map (fun t => a.rows.getD t [])).getD u [] = a.rows.getD u [] := by
    rw [← list_eq_range a.rows [] ha]; intros; rfl
  by_cases hu : t < n
  · rw [hr t hu]
  · rw [← list_eq_range a.rows [] ha]

theorem neighbours_pos {n : Nat} {h : ℝ} (hh : 0 ≤ h) (vars : List (List (List ℝ))) {t : Nat} (ht : t < n) :
    0 < neighbours n h vars t := by
  unfold neighbours
  rw [List.length_pos_iff_exists_mem]
  exact ⟨t, by simp [ht, inBox_self hh]⟩

theorem neighbours_le (n : Nat) (h : ℝ) (vars : List (List (List ℝ))) (t : Nat) : neighbours n h vars t ≤ n := by
  unfold neighbours
  exact (List.length_filter_le _ _).trans (by simp)

theorem neighbours_anti {n : Nat} {h : ℝ} {vars vars' : List (List (List ℝ))} (hs : ∀ X ∈ vars', X ∈ vars)
    (t : Nat) : neighbours n h vars t ≤ neighbours n h vars' t := by
  unfold neighbours
  rw [← List.countP_eq_length_filter, ← List.countP_eq_length_filter]
  refine List.countP_mono_left fun s _ H => ?_
  simp only [decide_eq_true_eq] at H ⊢
  exact fun X hX => H X (hs X hX)

theorem neighbours_congr {n : Nat} {h : ℝ} {vars vars' : List (List (List ℝ))} (hs : ∀ X, X ∈ vars' ↔ X ∈ vars)
    (t : Nat) : neighbours n h vars t = neighbours n h vars' t :=
  le_antisymm (neighbours_anti (fun X hX => (hs X).1 hX) t) (neighbours_anti (fun X hX => (hs X).2 hX) t)

theorem kde_joint {n : Nat} {as : List Arr} (ha : Aligned n as) {h : ℝ} (hh : 0 < h) (w : Int) :
    kdeDensity ⟨(as.map Arr.cols).sum, (List.range n).map (jrow as)⟩ none (boxCfg h w) =
      .ok ((List.range n).map (fun t => (neighbours n h (as.map Arr.rows) t : ℝ) / (n * h ^ (as.map Arr.cols).sum))) := by
  rw [kde_box hh w _ (by
    intro x hx
    obtain ⟨t, ht, rfl⟩ := List.mem_map.1 hx
    exact jrow_length ha (List.mem_range.1 ht))]
  rw [List.map_map]
  congr 1
  refine List.map_congr_left fun t ht => ?_
  simp only [Function.comp, boxDensity, List.length_map, List.length_range]
  rw [boxCount_jrow ha (List.mem_range.1 ht)]

theorem kde_single {n : Nat} {a : Arr} (ha : a.rows.length = n ∧ Points a.rows a.cols) {h : ℝ} (hh : 0 < h) (w : Int) :
    kdeDensity a none (boxCfg h w) =
      .ok ((List.range n).map (fun t => (neighbours n h [a.rows] t : ℝ) / (n * h ^ a.cols))) := by
  have := kde_joint (n := n) (as := [a]) (by intro b hb; simp at hb; rw [hb]; exact ha) hh w
  have e : (⟨([a].map Arr.cols).sum, (List.range n).map (jrow [a])⟩ : Arr) = a := by
    cases a with
    | mk c r =>
      have hj : jrow [⟨c, r⟩] = fun t => r.getD t [] := by funext t; simp [jrow]
      rw [hj, ← list_eq_range r [] ha.1]
      simp
  rw [e] at this
  rw [this]
  simp

theorem prod_div_pow {α : Type} (l : List α) (f : α → ℝ) (g : α → Nat) (n h : ℝ) :
    (l.map (fun a => f a / (n * h ^ g a))).prod = (l.map (fun a => f a / n)).prod / h ^ (l.map g).sum := by
  induction l with
  | nil => simp
  | cons a l ih =>
    simp only [List.map_cons, List.prod_cons, List.sum_cons, ih, pow_add]
    simp only [div_eq_mul_inv, mul_inv]
    ring

theorem kernelMICalc_box {n : Nat} (hn : 0 < n) {as : List Arr} (hne : as ≠ []) (ha : Aligned n as) {h : ℝ} (hh : 0 < h)
    (w : Int) {b : Base} (hb : b.Valid) :
    kernelMICalc (boxCfg h w) b as =
      .ok ((List.range n).map (fun t =>
        Real.log (((neighbours n h (as.map Arr.rows) t : ℝ) / n) /
          ((as.map Arr.rows).map (fun X => (neighbours n h [X] t : ℝ) / n)).prod) / b.ln)) := by
  unfold kernelMICalc
  rw [stackArrs_ok hne (fun a h => (ha a h).1)]
  simp only [bind, Except.bind]
  rw [kde_joint ha hh w]
  simp only
  rw [mapM_ok (g := fun a : Arr => (List.range n).map (fun t => (neighbours n h [a.rows] t : ℝ) / (n * h ^ a.cols)))]
  swap
  · intro a h'; exact kde_single (ha a h') hh w
  simp only [List.length_map, List.length_range]
  refine mapM_ok _ fun t ht => ?_
  have ht' := List.mem_range.1 ht
  have hn' : (0 : ℝ) < n := by exact_mod_cast hn
  have e1 : ((List.range n).map (fun t => (neighbours n h (as.map Arr.rows) t : ℝ) /
      (n * h ^ (as.map Arr.cols).sum))).getD t 0 =
      (neighbours n h (as.map Arr.rows) t : ℝ) / (n * h ^ (as.map Arr.cols).sum) := by
    simp [List.getD_eq_getElem?_getD, ht']
  have e2 : ((as.map (fun a : Arr => (List.range n).map (fun t => (neighbours n h [a.rows] t : ℝ) /
      (n * h ^ a.cols)))).map (fun d => d.getD t 0)).prod =
      ((as.map Arr.rows).map (fun X => (neighbours n h [X] t : ℝ) / n)).prod / h ^ (as.map Arr.cols).sum := by
    rw [List.map_map, List.map_map]
    have : (fun d => d.getD t 0) ∘ (fun a : Arr => (List.range n).map (fun t => (neighbours n h [a.rows] t : ℝ) /
        (n * h ^ a.cols))) = fun a : Arr => (neighbours n h [a.rows] t : ℝ) / (n * h ^ a.cols) := by
      funext a
      simp [List.getD_eq_getElem?_getD, ht']
    rw [this, prod_div_pow as (fun a => (neighbours n h [a.rows] t : ℝ)) Arr.cols n h]
    rfl
  have hprod : 0 < ((as.map Arr.rows).map (fun X => (neighbours n h [X] t : ℝ) / n)).prod := by
    apply List.prod_pos
    intro x hx
    obtain ⟨X, _, rfl⟩ := List.mem_map.1 hx
    have : (0 : ℝ) < neighbours n h [X] t := by exact_mod_cast neighbours_pos hh.le _ ht'
    positivity
  have hj : (0 : ℝ) < neighbours n h (as.map Arr.rows) t := by exact_mod_cast neighbours_pos hh.le _ ht'
  rw [e1, e2]
  have e3 : (neighbours n h (as.map Arr.rows) t : ℝ) / (n * h ^ (as.map Arr.cols).sum) /
      (((as.map Arr.rows).map (fun X => (neighbours n h [X] t : ℝ) / n)).prod / h ^ (as.map Arr.cols).sum) =
      ((neighbours n h (as.map Arr.rows) t : ℝ) / n) /
          ((as.map Arr.rows).map (fun X => (neighbours n h [X] t : ℝ) / n)).prod := by
    field_simp
  rw [e3]
  exact logBase_ok hb (by positivity)

end Verif
