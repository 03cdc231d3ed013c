import Verif.Model.Kernel
import Verif.Spec.Kernel
import Verif.Lemmas.TE3
import Verif.Lemmas.Entropy
import Mathlib.Tactic.Positivity
import Mathlib.Tactic.FieldSimp

/-! # Lemmas: box-kernel densities -/

namespace Verif

open Spec

/-- box kernel with a float bandwidth -/
noncomputable def boxCfg (h : ℝ) (workers : Int := 1) : KdeCfg := ⟨.num h, .box, workers⟩

theorem withinBox_iff {h : ℝ} {x y : List ℝ} (hl : x.length = y.length) :
    withinBox (h / 2) x y ↔ InBox h x y := by
  unfold withinBox InBox
  constructor
  · intro H i hi
    have hi2 : i < (x.zip y).length := by simp [List.length_zip, ← hl, hi]
    have := H _ (List.getElem_mem hi2)
    rw [List.getElem_zip] at this
    simpa [List.getD_eq_getElem?_getD, hi, hl ▸ hi] using this
  · intro H p hp
    obtain ⟨i, hi, rfl⟩ := List.mem_iff_getElem.1 hp
    have hi' : i < x.length := by simp [List.length_zip] at hi; omega
    have := H i hi'
    rw [List.getElem_zip]
    simpa [List.getD_eq_getElem?_getD, hi', hl ▸ hi'] using this

theorem ballCount_eq {S : List (List ℝ)} {d : Nat} {h : ℝ} {x : List ℝ} (hS : Points S d) (hx : x.length = d) :
    ballCount S (h / 2) x = boxCount S h x := by
  unfold ballCount boxCount
  rw [List.countP_eq_length_filter]
  congr 1
  refine List.filter_congr fun y hy => ?_
  simp only [decide_eq_decide]
  exact withinBox_iff (by rw [hx, hS y hy])

theorem inBox_self {h : ℝ} (hh : 0 ≤ h) (x : List ℝ) : InBox h x x := fun i _ => by simp; linarith

theorem boxCount_pos {S : List (List ℝ)} {h : ℝ} (hh : 0 ≤ h) {x : List ℝ} (hx : x ∈ S) :
    0 < boxCount S h x := by
  unfold boxCount
  rw [List.length_pos_iff_exists_mem]
  exact ⟨x, by simp [hx, inBox_self hh]⟩

theorem boxCount_le (S : List (List ℝ)) (h : ℝ) (x : List ℝ) : boxCount S h x ≤ S.length := by
  unfold boxCount; exact List.length_filter_le _ _

theorem boxDensity_pos {S : List (List ℝ)} {d : Nat} {h : ℝ} (hh : 0 < h) {x : List ℝ} (hx : x ∈ S) :
    0 < boxDensity S d h x := by
  have h1 := boxCount_pos hh.le hx
  have h2 : 0 < S.length := List.length_pos_of_mem hx
  unfold boxDensity
  positivity

theorem boxDensity_bounds {S : List (List ℝ)} {d : Nat} {h : ℝ} (hh : 0 < h) {x : List ℝ} (hx : x ∈ S) :
    1 / (S.length * h ^ d) ≤ boxDensity S d h x ∧ boxDensity S d h x ≤ 1 / h ^ d := by
  have h1 : (1 : ℝ) ≤ boxCount S h x := by exact_mod_cast boxCount_pos hh.le hx
  have h2 : (0 : ℝ) < S.length := by exact_mod_cast List.length_pos_of_mem hx
  have h3 : (boxCount S h x : ℝ) ≤ S.length := by exact_mod_cast boxCount_le S h x
  unfold boxDensity
  have hp : 0 < h ^ d := by positivity
  constructor
  · gcongr
  · rw [div_le_div_iff₀ (by positivity) hp]
    nlinarith

theorem kde_box {h : ℝ} (hh : 0 < h) (w : Int) (a : Arr) (ha : Points a.rows a.cols) :
    kdeDensity a none (boxCfg h w) = .ok (a.rows.map (boxDensity a.rows a.cols h)) := by
  unfold kdeDensity boxCfg
  simp only [PyArg.posNumber, hh, if_true, Option.getD_none, ne_eq, not_true_eq_false, if_false]
  congr 1
  refine List.map_congr_left fun x hx => ?_
  rw [ballCount_eq ha (ha x hx)]
  rfl

theorem kde_box_at {h : ℝ} (hh : 0 < h) (w : Int) (a q : Arr) (ha : Points a.rows a.cols)
    (hq : Points q.rows q.cols) (hd : q.cols = a.cols) :
    kdeDensity a (some q) (boxCfg h w) = .ok (q.rows.map (boxDensity a.rows a.cols h)) := by
  unfold kdeDensity boxCfg
  simp only [PyArg.posNumber, hh, if_true, Option.getD_some, hd, ne_eq, not_true_eq_false, if_false]
  congr 1
  refine List.map_congr_left fun x hx => ?_
  rw [ballCount_eq ha (by rw [hq x hx, hd])]
  rfl

theorem negLog_ok {b : Base} (hb : b.Valid) {p : ℝ} (hp : 0 < p) :
    negLogOrZero b p = .ok (- (Real.log p / b.ln)) := by
  simp [negLogOrZero, hp.ne', logBase_ok hb hp, Except.map]

theorem kernelSimple_box {h : ℝ} (hh : 0 < h) (w : Int) {b : Base} (hb : b.Valid) (a : Arr)
    (ha : Points a.rows a.cols) (hN : a.rows.length ≠ 1) :
    kernelSimple (boxCfg h w) b a =
      .ok (a.rows.map (fun x => - Real.log (boxDensity a.rows a.cols h x) / b.ln)) := by
  unfold kernelSimple
  rw [kde_box hh w a ha]
  simp only [bind, Except.bind, pure, Except.pure]
  rw [mapM_ok (g := fun p => - (Real.log p / b.ln))]
  · simp only [List.length_map, hN, if_false, List.map_map]
    congr 1
    refine List.map_congr_left fun x _ => ?_
    simp [neg_div]
  · intro p hp
    obtain ⟨x, hx, rfl⟩ := List.mem_map.1 hp
    exact negLog_ok hb (boxDensity_pos hh hx)

theorem sum_map_div_const {α : Type} (l : List α) (f : α → ℝ) (c : ℝ) :
    (l.map (fun x => f x / c)).sum = (l.map f).sum / c := by
  induction l with
  | nil => simp
  | cons a l ih => simp only [List.map_cons, List.sum_cons, ih]; ring

theorem mean_map_div {α : Type} (l : List α) (f : α → ℝ) (c : ℝ) :
    mean (l.map (fun x => f x / c)) = mean (l.map f) / c := by
  unfold mean
  rw [sum_map_div_const]
  simp only [List.length_map]
  ring

theorem meanOrNan_ok {l : List ℝ} (h : l ≠ []) : meanOrNan l = .ok (mean l) := by
  unfold meanOrNan mean
  rw [if_neg (by simpa using h)]

theorem kernelEntropy_arr {h : ℝ} (hh : 0 < h) (w : Int) {b : Base} (hb : b.Valid) (v : KVar)
    (hv : Points (assure2d v).rows (assure2d v).cols) (hN : 2 ≤ v.len) :
    kernelEntropy [.arr v] (boxCfg h w) b =
      .ok (boxEntropy (assure2d v).rows (assure2d v).cols h / b.ln) := by
  have hl : (assure2d v).rows.length = v.len := by cases v <;> simp [assure2d, KVar.len]
  have hne : (assure2d v).rows ≠ [] := by
    intro h0; rw [h0] at hl; simp at hl; omega
  simp only [kernelEntropy, kernelEntropyLocal]
  rw [kernelSimple_box hh w hb _ hv (by omega)]
  simp only [bind, Except.bind]
  rw [meanOrNan_ok (by simpa using hne), mean_map_div]
  rfl

theorem points_one (xs : List ℝ) : Points (xs.map (fun x => [x])) 1 := by
  intro x hx
  obtain ⟨y, _, rfl⟩ := List.mem_map.1 hx
  rfl

end Verif
