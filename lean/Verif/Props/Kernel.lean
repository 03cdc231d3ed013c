import Verif.Lemmas.Kernel

/-!
# C47: box-kernel densities and entropy

`kernelEntropy [.arr v] (boxCfg h w) b` is `entropy(v, approach="kernel", kernel="box", bandwidth=h,
workers=w, base=b)`.
-/

namespace Verif

open Spec

/-- a 1-D or 2-D array whose rows all have the array's number of columns -/
def KVar.WF (v : KVar) : Prop := Points (assure2d v).rows (assure2d v).cols

theorem KVar.wf_one (xs : List ℝ) : (KVar.one xs).WF := points_one xs

/-- The density at every sample point is the fraction of the sample inside the box over its volume; every
point counts itself, so the value lies between `1/(N h^d)` and `1/h^d`. -/
theorem C47_density_bounds (a : Arr) (ha : Points a.rows a.cols) (h : ℝ) (hh : 0 < h) (w : Int) :
    ∃ ds, kdeDensity a none (boxCfg h w) = .ok ds ∧ ds = a.rows.map (boxDensity a.rows a.cols h) ∧
      ∀ ρ ∈ ds, 0 < ρ ∧ 1 / (a.rows.length * h ^ a.cols) ≤ ρ ∧ ρ ≤ 1 / h ^ a.cols := by
  refine ⟨_, kde_box hh w a ha, rfl, fun ρ hρ => ?_⟩
  obtain ⟨x, hx, rfl⟩ := List.mem_map.1 hρ
  exact ⟨boxDensity_pos hh hx, boxDensity_bounds hh hx⟩

example := C47_density_bounds ⟨2, [[0, 1], [1, 1], [3, 0]]⟩ (by simp [Points]) (3/2) (by norm_num) 1

/-- The kernel entropy of at least two samples is the mean of minus the log-density. -/
theorem C47_entropy_value (v : KVar) (hv : v.WF) (hN : 2 ≤ v.len) (h : ℝ) (hh : 0 < h) (w : Int) (b : Base)
    (hb : b.Valid) :
    kernelEntropy [.arr v] (boxCfg h w) b =
      .ok (boxEntropy (assure2d v).rows (assure2d v).cols h / b.ln) :=
  kernelEntropy_arr hh w hb v hv hN

example := C47_entropy_value (.two ⟨2, [[0, 1], [1, 1], [3, 0]]⟩) (by simp [KVar.WF, assure2d, Points]) (by decide) (3/2) (by norm_num) 1 (.num 2) (by norm_num [Base.Valid])

/-- The local values are minus the log-density at every sample and average to the entropy. -/
theorem C47_local_values (v : KVar) (hv : v.WF) (hN : 2 ≤ v.len) (h : ℝ) (hh : 0 < h) (w : Int) (b : Base)
    (hb : b.Valid) :
    ∃ ls, kernelEntropyLocal [.arr v] (boxCfg h w) b = .ok ls ∧
      ls = (assure2d v).rows.map
        (fun x => - Real.log (boxDensity (assure2d v).rows (assure2d v).cols h x) / b.ln) ∧
      kernelEntropy [.arr v] (boxCfg h w) b = .ok (mean ls) := by
  have hl : (assure2d v).rows.length = v.len := by cases v <;> simp [assure2d, KVar.len]
  refine ⟨_, kernelSimple_box hh w hb _ hv (by omega), rfl, ?_⟩
  rw [C47_entropy_value v hv hN h hh w b hb, mean_map_div]
  rfl

example := C47_local_values (.one [0, 1, 3]) (KVar.wf_one _) (by decide) (3/2) (by norm_num) 1 (.num 2) (by norm_num [Base.Valid])

theorem mean_bounds {α : Type} {l : List α} (hl : l ≠ []) {f : α → ℝ} {lo hi : ℝ}
    (hf : ∀ x ∈ l, lo ≤ f x ∧ f x ≤ hi) : lo ≤ mean (l.map f) ∧ mean (l.map f) ≤ hi := by
  have hpos : (0 : ℝ) < l.length := by exact_mod_cast List.length_pos_iff.2 hl
  unfold mean
  rw [List.length_map, le_div_iff₀ hpos, div_le_iff₀ hpos]
  clear hpos hl
  induction l with
  | nil => simp
  | cons a l ih =>
    have h1 := hf a (by simp)
    have h2 := ih (fun x hx => hf x (by simp [hx]))
    simp only [List.map_cons, List.sum_cons, List.length_cons, Nat.cast_add, Nat.cast_one]
    obtain ⟨h1a, h1b⟩ := h1
    obtain ⟨h2a, h2b⟩ := h2
    constructor <;> nlinarith

theorem mean_eq_bound_iff {α : Type} {l : List α} (hl : l ≠ []) {f : α → ℝ} {lo : ℝ}
    (hf : ∀ x ∈ l, lo ≤ f x) : mean (l.map f) = lo ↔ ∀ x ∈ l, f x = lo := by
  have hpos : (0 : ℝ) < l.length := by exact_mod_cast List.length_pos_iff.2 hl
  unfold mean
  rw [List.length_map, div_eq_iff hpos.ne']
  clear hpos hl
  induction l with
  | nil => simp
  | cons a l ih =>
    have h1 := hf a (by simp)
    have hf' : ∀ x ∈ l, lo ≤ f x := fun x hx => hf x (by simp [hx])
    have h2 := ih hf'
    have h3 : lo * l.length ≤ (l.map f).sum := by
      clear h2 ih hf h1
      induction l with
      | nil => simp
      | cons c l ih =>
        have := hf' c (by simp)
        have := ih (fun x hx => hf' x (by simp [hx]))
        simp only [List.map_cons, List.sum_cons, List.length_cons, Nat.cast_add, Nat.cast_one]
        nlinarith
    simp only [List.map_cons, List.sum_cons, List.length_cons, Nat.cast_add, Nat.cast_one, List.mem_cons,
      forall_eq_or_imp, mul_add, mul_one]
    constructor
    · intro h
      have : f a = lo := by nlinarith
      exact ⟨this, h2.1 (by linarith)⟩
    · rintro ⟨e1, e2⟩
      rw [e1, h2.2 e2]
      ring

theorem neg_log_density {S : List (List ℝ)} {d : Nat} {h : ℝ} (hh : 0 < h) {x : List ℝ} (hx : x ∈ S) :
    - Real.log (boxDensity S d h x) = Real.log (S.length / boxCount S h x) + Real.log (h ^ d) := by
  have h1 : (0 : ℝ) < boxCount S h x := by exact_mod_cast boxCount_pos hh.le hx
  have h2 : (0 : ℝ) < S.length := by exact_mod_cast List.length_pos_of_mem hx
  have h3 : 0 < h ^ d := by positivity
  unfold boxDensity
  rw [← Real.log_inv, inv_div, ← Real.log_mul (by positivity) (by positivity)]
  congr 1
  field_simp

/-- `log(h^d) ≤ H ≤ log(N h^d)`, in the chosen base. -/
theorem C47_entropy_bounds (v : KVar) (hv : v.WF) (hN : 2 ≤ v.len) (h : ℝ) (hh : 0 < h) (w : Int) (b : Base)
    (hb : b.Std) :
    ∃ H, kernelEntropy [.arr v] (boxCfg h w) b = .ok H ∧
      Real.log (h ^ (assure2d v).cols) / b.ln ≤ H ∧ H ≤ Real.log (v.len * h ^ (assure2d v).cols) / b.ln := by
  refine ⟨_, C47_entropy_value v hv hN h hh w b hb.valid, ?_⟩
  have hl : (assure2d v).rows.length = v.len := by cases v <;> simp [assure2d, KVar.len]
  have hne : (assure2d v).rows ≠ [] := by intro h0; rw [h0] at hl; simp at hl; omega
  have := mean_bounds (f := fun x => - Real.log (boxDensity (assure2d v).rows (assure2d v).cols h x)) hne
    (lo := Real.log (h ^ (assure2d v).cols)) (hi := Real.log (v.len * h ^ (assure2d v).cols)) (fun x hx => by
      have hb := boxDensity_bounds (d := (assure2d v).cols) hh hx
      have hp := boxDensity_pos (d := (assure2d v).cols) hh hx
      have hhd : 0 < h ^ (assure2d v).cols := by positivity
      have hNpos : (0 : ℝ) < v.len := by exact_mod_cast (by omega : 0 < v.len)
      rw [hl] at hb
      constructor
      · rw [← Real.log_inv]
        apply Real.log_le_log hhd
        rw [le_inv_comm₀ hhd hp]
        simpa using hb.2
      · rw [← Real.log_inv]
        apply Real.log_le_log (by positivity)
        rw [inv_le_comm₀ hp (by positivity)]
        simpa using hb.1)
  exact ⟨div_le_div_of_nonneg_right this.1 hb.ln_pos.le, div_le_div_of_nonneg_right this.2 hb.ln_pos.le⟩

example := C47_entropy_bounds (.one [0, 1, 3]) (KVar.wf_one _) (by decide) (3/2) (by norm_num) 1 (.num 2) (by norm_num [Base.Std])

theorem boxCount_eq_length_iff (S : List (List ℝ)) (h : ℝ) (x : List ℝ) :
    boxCount S h x = S.length ↔ ∀ y ∈ S, InBox h x y := by
  unfold boxCount
  rw [List.length_filter_eq_length_iff]
  simp

/-- The lower bound is attained exactly when all samples lie in one another's boxes (in particular for
constant data). -/
theorem C47_entropy_min_iff (v : KVar) (hv : v.WF) (hN : 2 ≤ v.len) (h : ℝ) (hh : 0 < h) (w : Int) (b : Base)
    (hb : b.Std) :
    kernelEntropy [.arr v] (boxCfg h w) b = .ok (Real.log (h ^ (assure2d v).cols) / b.ln) ↔
      ∀ x ∈ (assure2d v).rows, ∀ y ∈ (assure2d v).rows, InBox h x y := by
  rw [C47_entropy_value v hv hN h hh w b hb.valid]
  have hl : (assure2d v).rows.length = v.len := by cases v <;> simp [assure2d, KVar.len]
  have hne : (assure2d v).rows ≠ [] := by intro h0; rw [h0] at hl; simp at hl; omega
  simp only [Except.ok.injEq, div_left_inj' hb.ln_pos.ne']
  unfold boxEntropy
  rw [mean_eq_bound_iff hne]
  · refine forall₂_congr fun x hx => ?_
    rw [← boxCount_eq_length_iff, neg_log_density hh hx]
    have h1 : (0 : ℝ) < boxCount (assure2d v).rows h x := by exact_mod_cast boxCount_pos hh.le hx
    have h2 : (0 : ℝ) < (assure2d v).rows.length := by exact_mod_cast List.length_pos_of_mem hx
    have h3 : (boxCount (assure2d v).rows h x : ℝ) ≤ (assure2d v).rows.length := by
      exact_mod_cast boxCount_le _ _ _
    have hq : 0 < ((assure2d v).rows.length : ℝ) / boxCount (assure2d v).rows h x := by positivity
    rw [add_eq_right, Real.log_eq_zero]
    constructor
    · rintro (h | h | h)
      · linarith
      · rw [div_eq_one_iff_eq h1.ne'] at h
        exact_mod_cast h.symm
      · linarith
    · intro h
      right; left
      rw [h, div_self h2.ne']
  · intro x hx
    rw [neg_log_density hh hx]
    have h1 : (0 : ℝ) < boxCount (assure2d v).rows h x := by exact_mod_cast boxCount_pos hh.le hx
    have h3 : (boxCount (assure2d v).rows h x : ℝ) ≤ (assure2d v).rows.length := by
      exact_mod_cast boxCount_le _ _ _
    have : 0 ≤ Real.log (((assure2d v).rows.length : ℝ) / boxCount (assure2d v).rows h x) := by
      apply Real.log_nonneg
      rw [le_div_iff₀ h1]
      linarith
    linarith

example := C47_entropy_min_iff (.one [0, 1, 3]) (KVar.wf_one _) (by decide) (3/2) (by norm_num) 1 (.num 2) (by norm_num [Base.Std])

/-- Constant data: the entropy is the log-volume of the box. -/
theorem C47_constant (n : Nat) (hn : 2 ≤ n) (c h : ℝ) (hh : 0 < h) (w : Int) (b : Base) (hb : b.Std) :
    kernelEntropy [.arr (.one (List.replicate n c))] (boxCfg h w) b = .ok (Real.log h / b.ln) := by
  have := (C47_entropy_min_iff (.one (List.replicate n c)) (KVar.wf_one _) (by simpa [KVar.len] using hn) h hh w b
    hb).2 (by
      intro x hx y hy
      simp only [assure2d, List.map_replicate, List.mem_replicate] at hx hy
      rw [hx.2, hy.2]
      exact inBox_self hh.le _)
  simpa [assure2d] using this

example : KVar.WF (.two ⟨2, [[0, 1], [2, 3], [0.1, 1]]⟩) ∧ 2 ≤ (KVar.two ⟨2, [[0, 1], [2, 3], [0.1, 1]]⟩).len := by
  constructor
  · intro x hx; simp [assure2d] at hx; rcases hx with rfl | rfl | rfl <;> rfl
  · simp [KVar.len]

end Verif
