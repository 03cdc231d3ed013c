import Verif.Props.Kernel

/-!
# C47 (continued): invariances of the box-kernel entropy, cross-entropy, guards
-/

namespace Verif

open Spec

theorem boxCount_map {S : List (List ℝ)} {h h' : ℝ} {x : List ℝ} (f : List ℝ → List ℝ)
    (hf : ∀ y ∈ S, InBox h' (f x) (f y) ↔ InBox h x y) : boxCount (S.map f) h' (f x) = boxCount S h x := by
  unfold boxCount
  rw [List.filter_map, List.length_map]
  congr 1
  refine List.filter_congr fun y hy => ?_
  simp [hf y hy]

theorem boxCount_perm {S S' : List (List ℝ)} (hp : S.Perm S') (h : ℝ) (x : List ℝ) :
    boxCount S h x = boxCount S' h x := (hp.filter _).length_eq

/-- a function of the points that keeps all box relations within the sample -/
theorem boxEntropy_map {S : List (List ℝ)} {d d' : Nat} {h h' : ℝ} (hd : h ^ d = h' ^ d') (f : List ℝ → List ℝ)
    (hf : ∀ x ∈ S, ∀ y ∈ S, InBox h' (f x) (f y) ↔ InBox h x y) :
    boxEntropy (S.map f) d' h' = boxEntropy S d h := by
  unfold boxEntropy
  rw [List.map_map]
  congr 1
  refine List.map_congr_left fun x hx => ?_
  simp only [Function.comp, boxDensity, List.length_map, boxCount_map f (hf x hx), hd]

theorem boxEntropy_perm {S S' : List (List ℝ)} (hp : S.Perm S') (d : Nat) (h : ℝ) :
    boxEntropy S d h = boxEntropy S' d h := by
  unfold boxEntropy mean
  have : (fun x => - Real.log (boxDensity S d h x)) = fun x => - Real.log (boxDensity S' d h x) := by
    funext x
    simp only [boxDensity, boxCount_perm hp, hp.length_eq]
  rw [this, (hp.map _).sum_eq, List.length_map, List.length_map, hp.length_eq]

theorem KVar.len_rows (v : KVar) : (assure2d v).rows.length = v.len := by cases v <;> simp [assure2d, KVar.len]

/-- Reordering the samples does not change the entropy. -/
theorem C47_sample_order (a a' : Arr) (hc : a.cols = a'.cols) (hp : a.rows.Perm a'.rows)
    (ha : Points a.rows a.cols) (hN : 2 ≤ a.rows.length) (h : ℝ) (hh : 0 < h) (w : Int) (b : Base) (hb : b.Valid) :
    ∃ H, kernelEntropy [.arr (.two a)] (boxCfg h w) b = .ok H ∧
      kernelEntropy [.arr (.two a')] (boxCfg h w) b = .ok H := by
  have ha' : Points a'.rows a'.cols := fun x hx => by rw [← hc]; exact ha x (hp.mem_iff.2 hx)
  refine ⟨_, C47_entropy_value (.two a) ha hN h hh w b hb, ?_⟩
  rw [C47_entropy_value (.two a') ha' (by simpa [KVar.len, ← hp.length_eq] using hN) h hh w b hb]
  simp only [assure2d, ← boxEntropy_perm hp, hc]

example := C47_sample_order ⟨2, [[0, 1], [1, 1], [3, 0]]⟩ ⟨2, [[1, 1], [0, 1], [3, 0]]⟩ rfl (List.Perm.swap _ _ _) (by simp [Points]) (by decide) (3/2) (by norm_num) 1 (.num 2) (by norm_num [Base.Valid])

/-- add a fixed vector to a point -/
def shift (t : List ℝ) (x : List ℝ) : List ℝ := List.zipWith (· + ·) x t

theorem getD_shift {t x : List ℝ} (ht : t.length = x.length) (i : Nat) (hi : i < x.length) :
    (shift t x).getD i 0 = x.getD i 0 + t.getD i 0 := by
  simp [shift, List.getD_eq_getElem?_getD, List.getElem?_zipWith, hi, ht ▸ hi]

theorem inBox_shift {t x y : List ℝ} {h : ℝ} (hx : t.length = x.length) (hy : t.length = y.length) :
    InBox h (shift t x) (shift t y) ↔ InBox h x y := by
  have hl : (shift t x).length = x.length := by simp [shift, hx]
  unfold InBox
  rw [hl]
  refine forall₂_congr fun i hi => ?_
  rw [getD_shift hx i hi, getD_shift hy i (by omega)]
  rw [show x.getD i 0 + t.getD i 0 - (y.getD i 0 + t.getD i 0) = x.getD i 0 - y.getD i 0 by ring]

/-- Translating all samples by a fixed vector does not change the entropy. -/
theorem C47_translation (a : Arr) (ha : Points a.rows a.cols) (t : List ℝ) (ht : t.length = a.cols)
    (hN : 2 ≤ a.rows.length) (h : ℝ) (hh : 0 < h) (w : Int) (b : Base) (hb : b.Valid) :
    ∃ H, kernelEntropy [.arr (.two a)] (boxCfg h w) b = .ok H ∧
      kernelEntropy [.arr (.two ⟨a.cols, a.rows.map (shift t)⟩)] (boxCfg h w) b = .ok H := by
  refine ⟨_, C47_entropy_value (.two a) ha hN h hh w b hb, ?_⟩
  rw [C47_entropy_value (.two ⟨a.cols, a.rows.map (shift t)⟩) (by
    intro x hx
    obtain ⟨y, hy, rfl⟩ := List.mem_map.1 hx
    have := ha y hy
    simp [shift, this, ht, assure2d]) (by simpa [KVar.len] using hN) h hh w b hb]
  simp only [assure2d]
  rw [boxEntropy_map rfl _ (fun x hx y hy => inBox_shift (by rw [ha x hx, ht]) (by rw [ha y hy, ht]))]

example := C47_translation ⟨2, [[0, 1], [1, 1], [3, 0]]⟩ (by simp [Points]) [5, -1] rfl (by decide) (3/2) (by norm_num) 1 (.num 2) (by norm_num [Base.Valid])

/-- multiply all coordinates by `c` -/
def scaleRow (c : ℝ) (x : List ℝ) : List ℝ := x.map (c * ·)

theorem inBox_scale {c h : ℝ} (hc : c ≠ 0) {x y : List ℝ} :
    InBox (|c| * h) (scaleRow c x) (scaleRow c y) ↔ InBox h x y := by
  unfold InBox
  have hl : (scaleRow c x).length = x.length := by simp [scaleRow]
  have hg : ∀ (z : List ℝ) (i : Nat), (scaleRow c z).getD i 0 = c * z.getD i 0 := by
    intro z i
    simp only [scaleRow, List.getD_eq_getElem?_getD, List.getElem?_map]
    cases z[i]? <;> simp
  rw [hl]
  refine forall₂_congr fun i hi => ?_
  rw [hg, hg, ← mul_sub, abs_mul, mul_div_assoc]
  exact mul_le_mul_iff_right₀ (abs_pos.2 hc)

/-- Scaling data and bandwidth by the same factor `c ≠ 0` (for the bandwidth: `|c|`) adds `d · log|c|`. -/
theorem C47_scaling (a : Arr) (ha : Points a.rows a.cols) (hN : 2 ≤ a.rows.length) (h c : ℝ) (hh : 0 < h)
    (hc : c ≠ 0) (w : Int) (b : Base) (hb : b.Valid) :
    ∃ H, kernelEntropy [.arr (.two a)] (boxCfg h w) b = .ok H ∧
      kernelEntropy [.arr (.two ⟨a.cols, a.rows.map (scaleRow c)⟩)] (boxCfg (|c| * h) w) b =
        .ok (H + a.cols * Real.log |c| / b.ln) := by
  have hc' : 0 < |c| := abs_pos.2 hc
  refine ⟨_, C47_entropy_value (.two a) ha hN h hh w b hb, ?_⟩
  rw [C47_entropy_value (.two ⟨a.cols, a.rows.map (scaleRow c)⟩) (by
    intro x hx
    obtain ⟨y, hy, rfl⟩ := List.mem_map.1 hx
    have := ha y hy
    simp [scaleRow, this, assure2d]) (by simpa [KVar.len] using hN) _ (by positivity) w b hb]
  simp only [assure2d, Except.ok.injEq]
  rw [← add_div]
  congr 1
  unfold boxEntropy
  rw [List.map_map]
  have hpos : (0 : ℝ) < a.rows.length := by exact_mod_cast (by omega : 0 < a.rows.length)
  have e : ∀ x ∈ a.rows, ((fun x => -Real.log (boxDensity (List.map (scaleRow c) a.rows) a.cols (|c| * h) x)) ∘
      scaleRow c) x = - Real.log (boxDensity a.rows a.cols h x) + a.cols * Real.log |c| := by
    intro x hx
    have hp := boxDensity_pos (d := a.cols) hh hx
    have : boxDensity (List.map (scaleRow c) a.rows) a.cols (|c| * h) (scaleRow c x) =
        boxDensity a.rows a.cols h x / |c| ^ a.cols := by
      unfold boxDensity
      rw [boxCount_map (h := h) _ (fun y _ => inBox_scale hc), List.length_map, mul_pow]
      field_simp
    simp only [Function.comp, this]
    rw [Real.log_div hp.ne' (by positivity), Real.log_pow]
    ring
  rw [List.map_congr_left e]
  unfold mean
  rw [sum_map_add', List.length_map, List.length_map]
  rw [List.map_const', List.sum_replicate, nsmul_eq_mul]
  field_simp

example := C47_scaling ⟨2, [[0, 1], [1, 1], [3, 0]]⟩ (by simp [Points]) (by decide) (3/2) (-2) (by norm_num) (by norm_num) 1 (.num 2) (by norm_num [Base.Valid])

open Classical in
/-- With a box so small that distinct sample values are separated, the kernel entropy is the plug-in entropy of
the sample plus the log-volume of the box. -/
theorem C47_small_box (v : KVar) (hv : v.WF) (hN : 2 ≤ v.len) (h : ℝ) (hh : 0 < h)
    (hsep : ∀ x ∈ (assure2d v).rows, ∀ y ∈ (assure2d v).rows, InBox h x y → x = y) (w : Int) (b : Base)
    (hb : b.Valid) :
    kernelEntropy [.arr v] (boxCfg h w) b =
      .ok ((Spec.entropy (assure2d v).rows + (assure2d v).cols * Real.log h) / b.ln) := by
  rw [C47_entropy_value v hv hN h hh w b hb]
  congr 2
  set S := (assure2d v).rows with hS
  have hl := KVar.len_rows v
  have hpos : (0 : ℝ) < S.length := by rw [hS, hl]; exact_mod_cast (by omega : 0 < v.len)
  rw [entropy_eq_mean]
  unfold boxEntropy mean
  have e : ∀ x ∈ S, - Real.log (boxDensity S (assure2d v).cols h x) =
      - Real.log (freq S x) + (assure2d v).cols * Real.log h := by
    intro x hx
    have hc : boxCount S h x = cnt S x := by
      unfold boxCount cnt
      rw [List.countP_eq_length_filter]
      congr 1
      refine List.filter_congr fun y hy => ?_
      simp only [decide_eq_decide]
      exact ⟨fun hb => (hsep x hx y hy hb).symm, fun e => e ▸ inBox_self hh.le _⟩
    have hf : boxDensity S (assure2d v).cols h x = freq S x / h ^ (assure2d v).cols := by
      unfold boxDensity freq
      rw [hc]
      field_simp
    rw [hf, Real.log_div (freq_pos hx).ne' (by positivity), Real.log_pow]
    ring
  rw [List.map_congr_left e, sum_map_add', List.map_const', List.sum_replicate, nsmul_eq_mul, List.length_map]
  rw [List.length_map]
  field_simp

example := C47_small_box (.one [0, 1, 3]) (KVar.wf_one _) (by decide) 1 (by norm_num)
  (by norm_num [assure2d, InBox, abs_le]) 1 (.num 2) (by norm_num [Base.Valid])

/-- e.g. integer data with a bandwidth below 2 -/
theorem C47_integer_data (xs : List Int) (hN : 2 ≤ xs.length) (h : ℝ) (hh : 0 < h) (hh2 : h < 2) (w : Int)
    (b : Base) (hb : b.Valid) :
    kernelEntropy [.arr (.one (xs.map (fun x : Int => (x : ℝ))))] (boxCfg h w) b =
      .ok ((Spec.entropy xs + Real.log h) / b.ln) := by
  classical
  rw [C47_small_box _ (KVar.wf_one _) (by simpa [KVar.len] using hN) h hh _ w b hb]
  · simp only [assure2d, List.map_map, Nat.cast_one, one_mul]
    congr 3
    have := entropy_map_congr xs (fun x : Int => ([(x : ℝ)] : List ℝ)) id (fun u _ v _ => by simp)
    simpa [Function.comp_def] using this
  · intro x hx y hy hxy
    simp only [assure2d, List.map_map, List.mem_map, Function.comp] at hx hy
    obtain ⟨m, _, rfl⟩ := hx
    obtain ⟨n, _, rfl⟩ := hy
    have := hxy 0 (by simp)
    simp only [List.getD_cons_zero] at this
    have h1 : |(m : ℝ) - n| < 1 := by linarith
    have h2 : |m - n| < 1 := by exact_mod_cast h1
    rw [Int.abs_lt_one_iff] at h2
    have : m = n := by omega
    rw [this]

example : kernelEntropy [.arr (.one ([1, 1, 2, 5].map (fun x : Int => (x : ℝ))))] (boxCfg 0.5) .e =
    .ok ((Spec.entropy ([1, 1, 2, 5] : List Int) + Real.log 0.5) / Base.e.ln) :=
  C47_integer_data _ (by simp) _ (by norm_num) (by norm_num) _ _ trivial

theorem boxCount_eq_one_of_pairwise {S : List (List ℝ)} {h : ℝ} (hh : 0 < h)
    (hS : S.Pairwise (fun x y => ¬ InBox h x y ∧ ¬ InBox h y x)) {x : List ℝ} (hx : x ∈ S) :
    boxCount S h x = 1 := by
  unfold boxCount
  induction S with
  | nil => simp at hx
  | cons a S ih =>
    rw [List.pairwise_cons] at hS
    rw [List.filter_cons]
    rcases List.mem_cons.1 hx with rfl | hx'
    · rw [if_pos (by simpa using inBox_self hh.le x), List.length_cons]
      have : S.filter (fun y => @decide (InBox h x y) (Classical.propDecidable _)) = [] := by
        rw [List.filter_eq_nil_iff]
        intro y hy
        simpa using (hS.1 y hy).1
      rw [this]; rfl
    · rw [if_neg (by simpa using (hS.1 x hx').2)]
      exact ih hS.2 hx'

theorem pairwise_of_boxCount {S : List (List ℝ)} {h : ℝ} (hh : 0 < h)
    (hS : ∀ x ∈ S, boxCount S h x = 1) :
    S.Pairwise (fun x y => ¬ InBox h x y ∧ ¬ InBox h y x) := by
  induction S with
  | nil => exact List.Pairwise.nil
  | cons a S ih =>
    have hstep : ∀ x, boxCount (a :: S) h x =
        (@ite _ (InBox h x a) (Classical.propDecidable _) 1 0) + boxCount S h x := by
      intro x
      unfold boxCount
      rw [List.filter_cons]
      by_cases hx : InBox h x a
      · simp [hx]; omega
      · simp [hx]
    have ha := hS a (by simp)
    rw [hstep, if_pos (inBox_self hh.le a)] at ha
    have ha0 : boxCount S h a = 0 := by omega
    have hx1 : ∀ x ∈ S, ¬ InBox h x a ∧ boxCount S h x = 1 := by
      intro x hx
      have h1 := hS x (by simp [hx])
      rw [hstep] at h1
      have h2 := boxCount_pos hh.le hx
      by_cases hb : InBox h x a
      · rw [if_pos hb] at h1; omega
      · rw [if_neg hb] at h1; exact ⟨hb, by omega⟩
    refine List.Pairwise.cons (fun y hy => ⟨fun hb => ?_, (hx1 y hy).1⟩) (ih (fun x hx => (hx1 x hx).2))
    unfold boxCount at ha0
    rw [List.length_eq_zero_iff, List.filter_eq_nil_iff] at ha0
    exact ha0 y hy (by simpa using hb)

/-- The upper bound `log(N h^d)` is attained exactly when no two samples share a box. -/
theorem C47_entropy_max_iff (v : KVar) (hv : v.WF) (hN : 2 ≤ v.len) (h : ℝ) (hh : 0 < h) (w : Int) (b : Base)
    (hb : b.Std) :
    kernelEntropy [.arr v] (boxCfg h w) b = .ok (Real.log (v.len * h ^ (assure2d v).cols) / b.ln) ↔
      (assure2d v).rows.Pairwise (fun x y => ¬ InBox h x y) := by
  rw [C47_entropy_value v hv hN h hh w b hb.valid]
  have hl := KVar.len_rows v
  have hne : (assure2d v).rows ≠ [] := by intro h0; rw [h0] at hl; simp at hl; omega
  have hNpos : (0 : ℝ) < v.len := by exact_mod_cast (by omega : 0 < v.len)
  have hhd : 0 < h ^ (assure2d v).cols := by positivity
  simp only [Except.ok.injEq, div_left_inj' hb.ln_pos.ne']
  have hsymm : (assure2d v).rows.Pairwise (fun x y => ¬ InBox h x y) ↔
      (assure2d v).rows.Pairwise (fun x y => ¬ InBox h x y ∧ ¬ InBox h y x) := by
    refine List.Pairwise.iff_of_mem (fun {x y} hx hy => ?_)
    have : InBox h y x ↔ InBox h x y := by
      unfold InBox
      rw [hv x hx, hv y hy]
      exact forall₂_congr fun i _ => by rw [abs_sub_comm]
    rw [this, and_self]
  rw [hsymm]
  have hval : ∀ x ∈ (assure2d v).rows, - (- Real.log (boxDensity (assure2d v).rows (assure2d v).cols h x)) =
      Real.log (boxCount (assure2d v).rows h x) - Real.log (v.len * h ^ (assure2d v).cols) := by
    intro x hx
    have h1 : (0 : ℝ) < boxCount (assure2d v).rows h x := by exact_mod_cast boxCount_pos hh.le hx
    rw [neg_neg, ← Real.log_div h1.ne' (by positivity)]
    unfold boxDensity
    rw [hl]
  unfold boxEntropy
  have hneg : mean ((assure2d v).rows.map (fun x => - Real.log (boxDensity (assure2d v).rows (assure2d v).cols h x)))
      = - mean ((assure2d v).rows.map
        (fun x => - (- Real.log (boxDensity (assure2d v).rows (assure2d v).cols h x)))) := by
    unfold mean
    rw [sum_map_neg' _ (fun x => - Real.log (boxDensity (assure2d v).rows (assure2d v).cols h x)), List.length_map,
      List.length_map]
    ring
  rw [hneg, neg_eq_iff_eq_neg, mean_eq_bound_iff hne]
  · constructor
    · intro H
      refine pairwise_of_boxCount hh fun x hx => ?_
      have := H x hx
      rw [hval x hx] at this
      have h1 := boxCount_pos hh.le hx
      have h2 : Real.log (boxCount (assure2d v).rows h x) = 0 := by linarith
      have h3 : (0 : ℝ) < boxCount (assure2d v).rows h x := by exact_mod_cast h1
      rcases Real.log_eq_zero.1 h2 with h4 | h4 | h4
      · linarith
      · exact_mod_cast h4
      · linarith
    · intro H x hx
      rw [hval x hx, boxCount_eq_one_of_pairwise hh H hx]
      simp
  · intro x hx
    rw [hval x hx]
    have : 0 ≤ Real.log (boxCount (assure2d v).rows h x) := Real.log_natCast_nonneg _
    linarith

example := C47_entropy_max_iff (.one [0, 1, 3]) (KVar.wf_one _) (by decide) (3/2) (by norm_num) 1 (.num 2) (by norm_num [Base.Std])

end Verif
