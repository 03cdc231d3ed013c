import Verif.Lemmas.Kernel2

/-! # Lemmas: the column selection of the kernel CMI on one-dimensional variables -/

namespace Verif

open Spec

/-- a one-dimensional series as a column -/
def col (xs : List ℝ) : Arr := assure2d (.one xs)

theorem col_getD {xs : List ℝ} {n t : Nat} (hx : xs.length = n) (ht : t < n) : (col xs).rows.getD t [] = [xs.getD t 0] := by
  have : t < xs.length := by omega
  simp [col, assure2d, List.getD_eq_getElem?_getD, this]

theorem col_aligned {n : Nat} {L : List (List ℝ)} (hl : ∀ xs ∈ L, xs.length = n) : Aligned n (L.map col) := by
  intro a ha
  obtain ⟨xs, hx, rfl⟩ := List.mem_map.1 ha
  refine ⟨by simp [col, assure2d, hl xs hx], ?_⟩
  intro r hr
  simp [col, assure2d] at hr
  obtain ⟨_, _, rfl⟩ := hr
  rfl

theorem jrow_col {n t : Nat} (ht : t < n) {L : List (List ℝ)} (hl : ∀ xs ∈ L, xs.length = n) :
    jrow (L.map col) t = L.map (fun xs => xs.getD t 0) := by
  unfold jrow
  rw [List.map_map]
  have : L.map ((fun a : Arr => a.rows.getD t []) ∘ col) = L.map (fun xs => [xs.getD t 0]) :=
    List.map_congr_left fun xs hx => col_getD (hl xs hx) ht
  rw [this]
  induction L with
  | nil => rfl
  | cons x L ih =>
    have := ih (fun xs hx => hl xs (by simp [hx])) (List.map_congr_left fun xs hx => col_getD (hl xs (by simp [hx])) ht)
    simp only [List.map_cons, List.flatten_cons, this]
    rfl

theorem col_cols_sum (L : List (List ℝ)) : ((L.map col).map Arr.cols).sum = L.length := by
  induction L with
  | nil => rfl
  | cons x L ih => simp only [List.map_cons, List.sum_cons, ih, List.length_cons]; simp [col, assure2d]; omega

/-- selecting columns of stacked one-dimensional series gives the stacked selected series -/
theorem sel_col {n : Nat} {L : List (List ℝ)} (hl : ∀ xs ∈ L, xs.length = n) (c : Nat) (idx : List Nat)
    (hi : ∀ i ∈ idx, i < L.length) :
    (Arr.mk c ((List.range n).map (jrow (L.map col)))).sel idx =
      ⟨((idx.map (fun i => L.getD i [])).map col |>.map Arr.cols).sum,
        (List.range n).map (jrow ((idx.map (fun i => L.getD i [])).map col))⟩ := by
  unfold Arr.sel
  rw [col_cols_sum, List.length_map, List.map_map]
  congr 1
  refine List.map_congr_left fun t ht => ?_
  have ht' := List.mem_range.1 ht
  simp only [Function.comp]
  rw [jrow_col ht' hl, jrow_col ht' (by
    intro xs hx
    obtain ⟨i, hi', rfl⟩ := List.mem_map.1 hx
    have := hi i hi'
    rw [List.getD_eq_getElem?_getD, List.getElem?_eq_getElem this]
    exact hl _ (List.getElem_mem this)), List.map_map]
  refine List.map_congr_left fun i hi' => ?_
  have := hi i hi'
  simp [List.getD_eq_getElem?_getD, this]

/-- samples of a one-dimensional series -/
def smp (xs : List ℝ) : List (List ℝ) := xs.map (fun x => [x])

theorem col_rows (xs : List ℝ) : (col xs).rows = smp xs := rfl

/-- Local values of the box-kernel CMI for `m` one-dimensional variables. -/
theorem kernelCMICalc_box {n : Nat} (hn : 0 < n) {L : List (List ℝ)} {z : List ℝ} (hl : ∀ xs ∈ L, xs.length = n)
    (hz : z.length = n) {h : ℝ} (hh : 0 < h) (w : Int) {b : Base} (hb : b.Valid) :
    kernelCMICalc (boxCfg h w) b (L.map col) (col z) =
      .ok ((List.range n).map (fun t =>
        Real.log (((neighbours n h (L.map smp ++ [smp z]) t : ℝ) / (n * h ^ (L.length + 1)) *
            ((neighbours n h [smp z] t : ℝ) / (n * h))) /
          (L.map (fun X => (neighbours n h [smp X, smp z] t : ℝ) / (n * h ^ 2))).prod) / b.ln)) := by
  have hall : ∀ xs ∈ L ++ [z], xs.length = n := by
    intro xs hx
    rcases List.mem_append.1 hx with h | h
    · exact hl xs h
    · simp at h; rw [h, hz]
  have hst : L.map col ++ [col z] = (L ++ [z]).map col := by simp
  unfold kernelCMICalc
  rw [hst, stackArrs_ok (by simp) (fun a h => (col_aligned hall a h).1)]
  simp only [bind, Except.bind]
  rw [kde_joint (col_aligned hall) hh w]
  simp only
  rw [mapM_ok (g := fun i : Nat => (List.range n).map (fun t => (neighbours n h [smp (L.getD i []), smp z] t : ℝ) / (n * h ^ 2)))]
  swap
  · intro i hi
    have hi' : i < L.length := by simpa using hi
    have hc : ((L ++ [z]).map col |>.map Arr.cols).sum - 1 = L.length := by rw [col_cols_sum]; simp
    rw [hc, sel_col hall _ _ (by simp; omega)]
    have e : [i, L.length].map (fun i => (L ++ [z]).getD i []) = [L.getD i [], z] := by
      simp [List.getD_eq_getElem?_getD, List.getElem?_append, hi']
    rw [e, kde_joint (col_aligned (by
      intro xs hx
      simp only [List.mem_cons, List.not_mem_nil, or_false] at hx
      rcases hx with rfl | rfl
      · rw [List.getD_eq_getElem?_getD, List.getElem?_eq_getElem hi']; exact hl _ (List.getElem_mem hi')
      · exact hz)) hh w]
    rfl
  simp only
  have hc : ((L ++ [z]).map col |>.map Arr.cols).sum - 1 = L.length := by rw [col_cols_sum]; simp
  rw [hc, sel_col hall _ _ (by simp)]
  have e : [L.length].map (fun i => (L ++ [z]).getD i []) = [z] := by
    simp [List.getD_eq_getElem?_getD]
  rw [e, kde_joint (col_aligned (by simp [hz])) hh w]
  simp only [List.length_map, List.length_range]
  refine mapM_ok _ fun t ht => ?_
  have ht' := List.mem_range.1 ht
  have hn' : (0 : ℝ) < n := by exact_mod_cast hn
  have g1 : ∀ f : Nat → ℝ, ((List.range n).map f).getD t 0 = f t := by
    intro f; simp [List.getD_eq_getElem?_getD, ht']
  have hjoint : ((L ++ [z]).map col).map Arr.rows = L.map smp ++ [smp z] := by
    rw [List.map_map]; simp [col_rows, Function.comp_def]
  have hprod : (((List.range L.length).map (fun i => (List.range n).map (fun t =>
      (neighbours n h [smp (L.getD i []), smp z] t : ℝ) / (n * h ^ 2)))).map (fun d => d.getD t 0)).prod =
      (L.map (fun X => (neighbours n h [smp X, smp z] t : ℝ) / (n * h ^ 2))).prod := by
    rw [List.map_map]
    conv_rhs => rw [list_eq_range L [] rfl, List.map_map]
    congr 1
    refine List.map_congr_left fun i _ => ?_
    simp only [Function.comp]
    rw [g1]
  rw [g1, g1, hprod, hjoint, col_cols_sum]
  have p1 : (0 : ℝ) < neighbours n h (L.map smp ++ [smp z]) t := by exact_mod_cast neighbours_pos hh.le _ ht'
  have p2 : (0 : ℝ) < neighbours n h [smp z] t := by exact_mod_cast neighbours_pos hh.le _ ht'
  have p3 : 0 < (L.map (fun X => (neighbours n h [smp X, smp z] t : ℝ) / (n * h ^ 2))).prod := by
    apply List.prod_pos
    intro x hx
    obtain ⟨X, _, rfl⟩ := List.mem_map.1 hx
    have : (0 : ℝ) < neighbours n h [smp X, smp z] t := by exact_mod_cast neighbours_pos hh.le _ ht'
    positivity
  have e5 : (List.map Arr.rows [col z]) = [smp z] := rfl
  have e6 : ([z].map col |>.map Arr.cols).sum = 1 := rfl
  simp only [e5, e6, List.length_append, List.length_cons, List.length_nil, zero_add, pow_one]
  rw [show (List.map Arr.rows (List.map col [z])) = [smp z] from rfl]
  exact logBase_ok hb (by positivity)

end Verif
