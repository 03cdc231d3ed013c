import Verif.Props.ExpMI3
import Verif.Props.KsgTE2
import Verif.Props.KernelTE

/-!
Lemmas for C95: affine maps of samples under the box kernel, and of the embedding of the conditional transfer entropy.
-/

namespace Verif

open Spec

/-- `c * x + o`, with an offset per column, of every row -/
def affRows (c : ℝ) (o : Nat → ℝ) (X : List (List ℝ)) : List (List ℝ) := X.map (fun r => r.mapIdx (fun j x => c * x + o j))

theorem units_inBox {h c : ℝ} (hc : c ≠ 0) (o : Nat → ℝ) {x y : List ℝ} (hl : x.length = y.length) :
    InBox (|c| * h) (x.mapIdx (fun j x => c * x + o j)) (y.mapIdx (fun j x => c * x + o j)) ↔ InBox h x y := by
  unfold InBox
  rw [List.length_mapIdx]
  refine forall₂_congr fun i hi => ?_
  have hg : ∀ z : List ℝ, i < z.length → (z.mapIdx (fun j x => c * x + o j)).getD i 0 = c * z.getD i 0 + o i := by
    intro z hz
    simp [List.getD_eq_getElem?_getD, hz]
  rw [hg x hi, hg y (by omega), show c * x.getD i 0 + o i - (c * y.getD i 0 + o i) = c * (x.getD i 0 - y.getD i 0) by ring, abs_mul,
    mul_div_assoc]
  exact mul_le_mul_iff_right₀ (abs_pos.2 hc)

theorem units_neighbours {n : Nat} {h c : ℝ} (hc : c ≠ 0) (L : List (List (List ℝ) × (Nat → ℝ)))
    (hl : ∀ p ∈ L, p.1.length = n ∧ ∃ d, Points p.1 d) {t : Nat} (ht : t < n) :
    neighbours n (|c| * h) (L.map (fun p => affRows c p.2 p.1)) t = neighbours n h (L.map Prod.fst) t := by
  unfold neighbours
  congr 1
  refine List.filter_congr fun s hs => ?_
  have hs' := List.mem_range.1 hs
  simp only [decide_eq_decide, List.mem_map, forall_exists_index, and_imp, forall_apply_eq_imp_iff₂]
  refine forall₂_congr fun p hp => ?_
  obtain ⟨h1, d, hd⟩ := hl p hp
  have hg : ∀ i, i < n → (affRows c p.2 p.1).getD i [] = (p.1.getD i []).mapIdx (fun j x => c * x + p.2 j) := by
    intro i hi
    have : i < p.1.length := by rw [h1]; exact hi
    simp [affRows, List.getD_eq_getElem?_getD, this]
  have hlen : ∀ i, i < n → (p.1.getD i []).length = d := by
    intro i hi
    have hi' : i < p.1.length := by rw [h1]; exact hi
    rw [List.getD_eq_getElem?_getD, List.getElem?_eq_getElem hi', Option.getD_some]
    exact hd _ (List.getElem_mem hi')
  rw [hg t ht, hg s hs']
  exact units_inBox hc p.2 (by rw [hlen t ht, hlen s hs'])

/-- Scaling samples and bandwidth together and shifting every column changes no box-kernel conditional mutual information. -/
theorem units_boxCMI {n : Nat} {h c : ℝ} (hc : c ≠ 0) {X Y Z : List (List ℝ)} (hX : X.length = n ∧ ∃ d, Points X d)
    (hY : Y.length = n ∧ ∃ d, Points Y d) (hZ : Z.length = n ∧ ∃ d, Points Z d) (ox oy oz : Nat → ℝ) :
    boxCMI n (|c| * h) (affRows c ox X) (affRows c oy Y) (affRows c oz Z) = boxCMI n h X Y Z := by
  unfold boxCMI
  congr 1
  refine List.map_congr_left fun t ht => ?_
  have ht' := List.mem_range.1 ht
  have e := fun L hl => units_neighbours (n := n) (h := h) hc L hl ht'
  have e1 := e [(X, ox), (Y, oy), (Z, oz)] (by
    intro p hp
    simp only [List.mem_cons, List.not_mem_nil, or_false] at hp
    rcases hp with rfl | rfl | rfl <;> assumption)
  have e2 := e [(Z, oz)] (by
    intro p hp
    simp only [List.mem_cons, List.not_mem_nil, or_false] at hp
    subst hp; assumption)
  have e3 := e [(X, ox), (Z, oz)] (by
    intro p hp
    simp only [List.mem_cons, List.not_mem_nil, or_false] at hp
    rcases hp with rfl | rfl <;> assumption)
  have e4 := e [(Y, oy), (Z, oz)] (by
    intro p hp
    simp only [List.mem_cons, List.not_mem_nil, or_false] at hp
    rcases hp with rfl | rfl <;> assumption)
  simp only [List.map_cons, List.map_nil] at e1 e2 e3 e4
  rw [e1, e2, e3, e4]

theorem units_smp (c o : ℝ) (xs : List ℝ) : smp (xs.map (fun x => c * x + o)) = affRows c (fun _ => o) (smp xs) := by
  simp [smp, affRows]

theorem units_smp_ok (xs : List ℝ) : (smp xs).length = xs.length ∧ ∃ d, Points (smp xs) d := by
  refine ⟨by simp [smp], 1, ?_⟩
  intro r hr
  obtain ⟨x, -, rfl⟩ := List.mem_map.1 hr
  rfl

theorem units_fut_ok (xs : List ℝ) (n m s : Nat) : (futRows xs n m s).length = numRows n m s ∧ ∃ d, Points (futRows xs n m s) d := by
  refine ⟨by simp [futRows], 1, ?_⟩
  intro r hr
  obtain ⟨x, -, rfl⟩ := List.mem_map.1 hr
  rfl

theorem units_hist_ok (xs : List ℝ) (n m s h : Nat) : (histRows xs n m s h).length = numRows n m s ∧ ∃ d, Points (histRows xs n m s h) d := by
  refine ⟨by simp [histRows], h, ?_⟩
  intro r hr
  obtain ⟨x, -, rfl⟩ := List.mem_map.1 hr
  simp [histRow]

theorem units_fut (dest : List ℝ) (m s : Nat) (hs : 0 < s) (hm : m * s < dest.length) (c o : ℝ) :
    futRows (dest.map (fun x => c * x + o)) dest.length m s = affRows c (fun _ => o) (futRows dest dest.length m s) := by
  unfold futRows affRows
  rw [List.map_map]
  refine List.map_congr_left fun i hi => ?_
  have := (lt_numRows hs hm).1 (List.mem_range.1 hi)
  simp [List.getD_eq_getElem?_getD, this]

theorem units_histRow {xs : List ℝ} {m s h i : Nat} (c o : ℝ) (hh : h ≤ m) (hi : (m + i) * s < xs.length) :
    histRow (xs.map (fun x => c * x + o)) m s h i = (histRow xs m s h i).mapIdx (fun _ x => c * x + o) := by
  rw [histRow_map _ hh hi, mapIdx_const_fn]

theorem units_hist (xs : List ℝ) (n m s h : Nat) (hs : 0 < s) (hn : xs.length = n) (hm : m * s < n) (hh : h ≤ m) (c o : ℝ) :
    histRows (xs.map (fun x => c * x + o)) n m s h = affRows c (fun _ => o) (histRows xs n m s h) := by
  unfold histRows affRows
  rw [List.map_map]
  refine List.map_congr_left fun i hi => ?_
  have := (lt_numRows hs hm).1 (List.mem_range.1 hi)
  exact units_histRow c o hh (by rw [hn]; exact this)

/-- the rows of destination history and condition history -/
theorem units_both (xs zs : List ℝ) (n m s h e : Nat) (hs : 0 < s) (hn : xs.length = n) (hz : zs.length = n) (hm : m * s < n) (hh : h ≤ m)
    (he : e ≤ m) (c o oz : ℝ) :
    (List.range (numRows n m s)).map (fun i => histRow (xs.map (fun x => c * x + o)) m s h i ++ histRow (zs.map (fun x => c * x + oz)) m s e i) =
      affRows c (fun j => if j < h then o else oz) ((List.range (numRows n m s)).map (fun i => histRow xs m s h i ++ histRow zs m s e i)) := by
  unfold affRows
  rw [List.map_map]
  refine List.map_congr_left fun i hi => ?_
  have hi' := (lt_numRows hs hm).1 (List.mem_range.1 hi)
  simp only [Function.comp]
  rw [units_histRow c o hh (by rw [hn]; exact hi'), units_histRow c oz he (by rw [hz]; exact hi'), List.mapIdx_append]
  have hlen : (histRow xs m s h i).length = h := by simp [histRow]
  congr 1
  · refine List.ext_getElem (by simp) fun j h1 h2 => ?_
    have : j < h := by simpa [hlen] using h1
    simp [this]
  · refine List.ext_getElem (by simp) fun j h1 h2 => ?_
    simp [hlen]

theorem units_both_ok (xs zs : List ℝ) (n m s h e : Nat) :
    ((List.range (numRows n m s)).map (fun i => histRow xs m s h i ++ histRow zs m s e i)).length = numRows n m s ∧
      ∃ d, Points ((List.range (numRows n m s)).map (fun i => histRow xs m s h i ++ histRow zs m s e i)) d := by
  refine ⟨by simp, h + e, ?_⟩
  intro r hr
  obtain ⟨x, -, rfl⟩ := List.mem_map.1 hr
  simp [histRow]

end Verif
