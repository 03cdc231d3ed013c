import Verif.Props.Kernel2
import Verif.Lemmas.Kernel2

/-!
# C47 (continued): joint and cross-entropy with the box kernel, argument errors
-/

namespace Verif

open Spec

/-- A tuple of aligned variables is treated as the array of their stacked columns; the neighbours of a joint
sample are the times at which all variables are close. -/
theorem C47_joint (vs : List KVar) (hne : vs ≠ []) (n : Nat) (hn : 2 ≤ n) (hlen : ∀ v ∈ vs, v.len = n)
    (hwf : ∀ v ∈ vs, v.WF) (h : ℝ) (hh : 0 < h) (w : Int) (b : Base) (hb : b.Valid) :
    kernelEntropy [.tup vs] (boxCfg h w) b =
      .ok (mean ((List.range n).map (fun t =>
        - Real.log ((neighbours n h (vs.map (fun v => (assure2d v).rows)) t : ℝ) /
          (n * h ^ (vs.map (fun v => (assure2d v).cols)).sum)))) / b.ln) := by
  have hal : Aligned n (vs.map assure2d) := by
    intro a ha
    obtain ⟨v, hv, rfl⟩ := List.mem_map.1 ha
    exact ⟨by rw [KVar.len_rows, hlen v hv], hwf v hv⟩
  have hall : vs.all (fun d => decide (d.len = (vs.headD (.one [])).len)) = true := by
    cases vs with
    | nil => exact absurd rfl hne
    | cons v vs =>
      rw [List.all_eq_true]
      intro u hu
      rw [decide_eq_true_eq, List.headD_cons, hlen u hu, hlen v (by simp)]
  simp only [kernelEntropy, kernelEntropyLocal, hall, if_true]
  rw [stackArrs_ok (by simpa using hne) (fun a ha => (hal a ha).1)]
  simp only [bind, Except.bind, kernelSimple]
  rw [kde_joint hal hh w]
  simp only
  rw [mapM_ok (g := fun p => - Real.log p / b.ln)]
  · simp only [List.length_map, List.length_range, pure, Except.pure]
    rw [if_neg (by omega)]
    simp only [List.map_map]
    rw [meanOrNan_ok (by simp; omega)]
    have := mean_map_div (List.range n) (fun t =>
        - Real.log ((neighbours n h (vs.map (fun v => (assure2d v).rows)) t : ℝ) /
          (n * h ^ (vs.map (fun v => (assure2d v).cols)).sum))) b.ln
    rw [← this]
    rfl
  · intro p hp
    obtain ⟨t, ht, rfl⟩ := List.mem_map.1 hp
    have h1 : (0 : ℝ) < neighbours n h ((vs.map assure2d).map Arr.rows) t := by
      exact_mod_cast neighbours_pos hh.le _ (List.mem_range.1 ht)
    have h2 : (0 : ℝ) < n := by exact_mod_cast (by omega : 0 < n)
    rw [negLog_ok hb (by positivity), neg_div]

example := C47_joint [.one [0, 1, 3], .two ⟨2, [[0, 1], [1, 1], [3, 0]]⟩] (by simp) 3 (by decide) (by simp [KVar.len])
  (by simp [KVar.WF, assure2d, Points]) (3/2) (by norm_num) 1 (.num 2) (by norm_num [Base.Valid])

/-- The order of the variables in a joint entropy does not matter, and repeating a variable changes only the
volume term. -/
theorem C47_joint_order (vs vs' : List KVar) (hp : vs.Perm vs') (hne : vs ≠ []) (n : Nat) (hn : 2 ≤ n)
    (hlen : ∀ v ∈ vs, v.len = n) (hwf : ∀ v ∈ vs, v.WF) (h : ℝ) (hh : 0 < h) (w : Int) (b : Base) (hb : b.Valid) :
    ∃ H, kernelEntropy [.tup vs] (boxCfg h w) b = .ok H ∧ kernelEntropy [.tup vs'] (boxCfg h w) b = .ok H := by
  refine ⟨_, C47_joint vs hne n hn hlen hwf h hh w b hb, ?_⟩
  rw [C47_joint vs' (by intro h0; rw [h0] at hp; exact hne (List.Perm.eq_nil hp)) n hn
    (fun v hv => hlen v (hp.mem_iff.2 hv)) (fun v hv => hwf v (hp.mem_iff.2 hv)) h hh w b hb]
  congr 2
  congr 1
  refine List.map_congr_left fun t _ => ?_
  rw [(hp.map _).sum_eq, neighbours_congr (fun X => (hp.map (fun v => (assure2d v).rows)).mem_iff)]

example := C47_joint_order [.one [0, 1, 3], .one [2, 2, 0]] [.one [2, 2, 0], .one [0, 1, 3]] (List.Perm.swap _ _ _) (by simp) 3 (by decide)
  (by simp [KVar.len]) (by simp [KVar.WF, assure2d, Points]) (3/2) (by norm_num) 1 (.num 2) (by norm_num [Base.Valid])

/-- Adding a variable cannot lower the entropy by more than its log-volume: `H(X…) + d_y log h ≤ H(X…, Y)`. -/
theorem C47_joint_monotone (vs : List KVar) (y : KVar) (hne : vs ≠ []) (n : Nat) (hn : 2 ≤ n)
    (hlen : ∀ v ∈ y :: vs, v.len = n) (hwf : ∀ v ∈ y :: vs, v.WF) (h : ℝ) (hh : 0 < h) (w : Int) (b : Base)
    (hb : b.Std) :
    ∃ H H', kernelEntropy [.tup vs] (boxCfg h w) b = .ok H ∧ kernelEntropy [.tup (y :: vs)] (boxCfg h w) b = .ok H' ∧
      H + (assure2d y).cols * Real.log h / b.ln ≤ H' := by
  refine ⟨_, _, C47_joint vs hne n hn (fun v hv => hlen v (by simp [hv])) (fun v hv => hwf v (by simp [hv])) h hh w b
    hb.valid, C47_joint (y :: vs) (by simp) n hn hlen hwf h hh w b hb.valid, ?_⟩
  rw [← add_div]
  apply div_le_div_of_nonneg_right _ hb.ln_pos.le
  have hn' : (0 : ℝ) < n := by exact_mod_cast (by omega : 0 < n)
  unfold mean
  simp only [List.length_map, List.length_range]
  rw [div_add' _ _ _ hn'.ne', div_le_div_iff_of_pos_right hn']
  have : (assure2d y).cols * Real.log h * n = ((List.range n).map (fun _ : Nat => (assure2d y).cols * Real.log h)).sum := by
    rw [List.map_const', List.sum_replicate, nsmul_eq_mul, List.length_range]; ring
  rw [this, ← sum_map_add']
  apply List.sum_le_sum
  intro t ht
  have h1 : (0 : ℝ) < neighbours n h ((y :: vs).map (fun v => (assure2d v).rows)) t := by
    exact_mod_cast neighbours_pos hh.le _ (List.mem_range.1 ht)
  have h2 : (neighbours n h ((y :: vs).map (fun v => (assure2d v).rows)) t : ℝ) ≤
      neighbours n h (vs.map (fun v => (assure2d v).rows)) t := by
    exact_mod_cast neighbours_anti (fun X hX => by simp only [List.map_cons, List.mem_cons]; exact .inr hX) t
  have h3 := h1.trans_le h2
  simp only [List.map_cons, List.sum_cons] at h1 h2 ⊢
  rw [Real.log_div h3.ne' (by positivity), Real.log_div h1.ne' (by positivity), Real.log_mul hn'.ne' (by positivity),
    Real.log_mul hn'.ne' (by positivity), pow_add, Real.log_mul (by positivity) (by positivity), Real.log_pow, Real.log_pow]
  have := Real.log_le_log h1 h2
  push_cast at this ⊢
  linarith

example := C47_joint_monotone [.one [0, 1, 3]] (.one [2, 2, 0]) (by simp) 3 (by decide)
  (by simp [KVar.len]) (by simp [KVar.WF, assure2d, Points]) (3/2) (by norm_num) 1 (.num 2) (by norm_num [Base.Std])

/-! ### Cross-entropy -/

/-- Cross-entropy: minus the log-density of `q` at the samples of `p`, summed over the samples where that density
is not zero, divided by the number of all samples of `p`. -/
theorem C47_cross_value (p q : KVar) (hp : p.WF) (hq : q.WF) (hd : (assure2d p).cols = (assure2d q).cols)
    (hN : 2 ≤ p.len) (hM : 1 ≤ q.len) (h : ℝ) (hh : 0 < h) (w : Int) (b : Base) (hb : b.Valid) :
    kernelEntropy [.arr p, .arr q] (boxCfg h w) b =
      .ok (((((assure2d p).rows.filter (fun x => decide (0 < boxCount (assure2d q).rows h x))).map
        (fun x => - Real.log (boxDensity (assure2d q).rows (assure2d q).cols h x))).sum / p.len) / b.ln) := by
  simp only [kernelEntropy, kernelCross]
  rw [kde_box_at hh w _ _ hq hp hd]
  simp only [bind, Except.bind]
  have hMpos : (0 : ℝ) < (assure2d q).rows.length := by
    rw [KVar.len_rows]; exact_mod_cast hM
  have hpos : ∀ x, 0 < boxDensity (assure2d q).rows (assure2d q).cols h x ↔ 0 < boxCount (assure2d q).rows h x := by
    intro x
    unfold boxDensity
    have : 0 < (assure2d q).rows.length * h ^ (assure2d q).cols := by positivity
    rw [div_pos_iff_of_pos_right this]
    exact Nat.cast_pos
  rw [List.filter_map, mapM_ok (g := fun d => Real.log d / b.ln)]
  · simp only [List.length_map, KVar.len_rows, pure, Except.pure]
    rw [if_neg (by omega), if_neg (by omega)]
    congr 1
    rw [List.map_map]
    have e : ((fun d => decide (0 < d)) ∘ boxDensity (assure2d q).rows (assure2d q).cols h) =
        fun x => decide (0 < boxCount (assure2d q).rows h x) := by
      funext x; simp [hpos]
    rw [e]
    have e2 : ((fun d => Real.log d / b.ln) ∘ boxDensity (assure2d q).rows (assure2d q).cols h) =
        fun x => Real.log (boxDensity (assure2d q).rows (assure2d q).cols h x) / b.ln := rfl
    rw [e2, sum_map_div_const, sum_map_neg' _ (fun x => Real.log (boxDensity (assure2d q).rows (assure2d q).cols h x))]
    ring
  · intro d hd'
    obtain ⟨x, hx, rfl⟩ := List.mem_map.1 hd'
    have := (List.mem_filter.1 hx).2
    simp only [Function.comp, decide_eq_true_eq] at this
    exact logBase_ok hb this

example := C47_cross_value (.one [0, 1, 3]) (.one [2, 0]) (KVar.wf_one _) (KVar.wf_one _) rfl (by decide) (by decide) (3/2) (by norm_num) 1 (.num 2) (by norm_num [Base.Valid])

/-- The cross-entropy of a sample with itself is its entropy. -/
theorem C47_cross_self (v : KVar) (hv : v.WF) (hN : 2 ≤ v.len) (h : ℝ) (hh : 0 < h) (w : Int) (b : Base) (hb : b.Valid) :
    kernelEntropy [.arr v, .arr v] (boxCfg h w) b = kernelEntropy [.arr v] (boxCfg h w) b := by
  rw [C47_cross_value v v hv hv rfl hN (by omega) h hh w b hb, C47_entropy_value v hv hN h hh w b hb]
  congr 2
  have : (assure2d v).rows.filter (fun x => decide (0 < boxCount (assure2d v).rows h x)) =
      (assure2d v).rows := by
    rw [List.filter_eq_self]
    intro x hx
    simpa using boxCount_pos hh.le hx
  rw [this]
  unfold boxEntropy mean
  rw [List.length_map, KVar.len_rows]

example := C47_cross_self (.one [0, 1, 3]) (KVar.wf_one _) (by decide) (3/2) (by norm_num) 1 (.num 2) (by norm_num [Base.Valid])

/-- Samples of `p` that no sample of `q` is close to are dropped silently: for disjoint supports the reported
cross-entropy is 0, whatever the samples, where the estimated density of `q` vanishes and no finite value exists. -/
theorem C47_cross_disjoint_is_zero (p q : KVar) (hp : p.WF) (hq : q.WF) (hd : (assure2d p).cols = (assure2d q).cols)
    (hN : 2 ≤ p.len) (hM : 1 ≤ q.len) (h : ℝ) (hh : 0 < h) (w : Int) (b : Base) (hb : b.Valid)
    (hdis : ∀ x ∈ (assure2d p).rows, ∀ y ∈ (assure2d q).rows, ¬ InBox h x y) :
    kernelEntropy [.arr p, .arr q] (boxCfg h w) b = .ok 0 := by
  rw [C47_cross_value p q hp hq hd hN hM h hh w b hb]
  have : (assure2d p).rows.filter (fun x => decide (0 < boxCount (assure2d q).rows h x)) =
      [] := by
    rw [List.filter_eq_nil_iff]
    intro x hx
    simp only [decide_eq_true_eq, not_lt, Nat.le_zero]
    unfold boxCount
    rw [List.length_eq_zero_iff, List.filter_eq_nil_iff]
    intro y hy
    simpa using hdis x hx y hy
  rw [this]
  simp

example : kernelEntropy [.arr (.one [0, 1]), .arr (.one [5, 6, 7])] (boxCfg 1) .e = .ok 0 := by
  refine C47_cross_disjoint_is_zero (.one [0, 1]) (.one [5, 6, 7]) (KVar.wf_one _) (KVar.wf_one _) rfl (by simp [KVar.len]) (by simp [KVar.len]) 1
    one_pos 1 .e trivial ?_
  intro x hx y hy hb
  simp [assure2d] at hx hy
  have := hb 0 (by rcases hx with rfl | rfl <;> simp)
  rcases hx with rfl | rfl <;> rcases hy with rfl | rfl | rfl <;> norm_num [abs_le] at this

/-! ### Argument errors -/

/-- A bandwidth that is not a positive number is a ValueError for one variable and for two, whatever the kernel. -/
theorem C47_bad_bandwidth (cfg : KdeCfg) (hbw : cfg.bandwidth.posNumber = none) (p q : KVar) (b : Base) :
    kernelEntropy [.arr p] cfg b = .error .valueError ∧ kernelEntropy [.arr p, .arr q] cfg b = .error .valueError := by
  simp [kernelEntropy, kernelEntropyLocal, kernelSimple, kernelCross, kdeDensity, hbw, bind, Except.bind]

example := C47_bad_bandwidth ⟨.num (-1), .box, 1⟩ (by norm_num [PyArg.posNumber]) (.one [0, 1, 3]) (.one [2, 0]) .e

/-- which bandwidths are rejected -/
theorem C47_bad_bandwidth_iff (a : PyArg) :
    a.posNumber = none ↔ (∃ n : Int, a = .int n ∧ n ≤ 0) ∨ (∃ x : ℝ, a = .num x ∧ x ≤ 0) ∨ a = .other := by
  cases a with
  | int n => by_cases h : 0 < n <;> simp [PyArg.posNumber, h] <;> omega
  | num x =>
    by_cases h : 0 < x
    · simp [PyArg.posNumber, h]
    · simp [PyArg.posNumber, h]; linarith
  | other => simp [PyArg.posNumber]

/-- An unsupported kernel name is a ValueError. -/
theorem C47_bad_kernel (cfg : KdeCfg) (hk : cfg.kernel = .unsupported) (p q : KVar) (b : Base) :
    kernelEntropy [.arr p] cfg b = .error .valueError ∧ kernelEntropy [.arr p, .arr q] cfg b = .error .valueError := by
  have h : ∀ a o, kdeDensity a o cfg = .error .valueError := by
    intro a o
    unfold kdeDensity
    rw [hk]
    cases cfg.bandwidth.posNumber with
    | none => rfl
    | some h => simp
  simp [kernelEntropy, kernelEntropyLocal, kernelSimple, kernelCross, h, bind, Except.bind]

example := C47_bad_kernel ⟨.num 1, .unsupported, 1⟩ rfl (.one [0, 1, 3]) (.one [2, 0]) .e

/-- Samples of different dimension cannot be compared: ValueError. -/
theorem C47_cross_dimension (cfg : KdeCfg) (p q : KVar) (hd : (assure2d p).cols ≠ (assure2d q).cols) (b : Base) :
    kernelEntropy [.arr p, .arr q] cfg b = .error .valueError := by
  simp only [kernelEntropy, kernelCross, kdeDensity, Option.getD_some, bind, Except.bind]
  cases cfg.bandwidth.posNumber with
  | none => simp
  | some h => simp [hd]

example := C47_cross_dimension (boxCfg 1) (.one [0, 1, 3]) (.two ⟨2, [[0, 1], [1, 1], [3, 0]]⟩) (by simp [assure2d]) .e

/-- A single sample is a TypeError, an empty one has no finite value. -/
theorem C47_short_data (v : KVar) (hv : v.WF) (h : ℝ) (hh : 0 < h) (w : Int) (b : Base) (hb : b.Valid) :
    (v.len = 1 → kernelEntropy [.arr v] (boxCfg h w) b = .error .typeError) ∧
    (v.len = 0 → kernelEntropy [.arr v] (boxCfg h w) b = .error .nonFinite) := by
  constructor
  · intro h1
    simp only [kernelEntropy, kernelEntropyLocal, kernelSimple]
    rw [kde_box hh w _ hv]
    simp only [bind, Except.bind]
    rw [mapM_ok (g := fun p => - (Real.log p / b.ln))]
    · simp [KVar.len_rows, h1]
    · intro p hp
      obtain ⟨x, hx, rfl⟩ := List.mem_map.1 hp
      exact negLog_ok hb (boxDensity_pos hh hx)
  · intro h0
    simp only [kernelEntropy, kernelEntropyLocal]
    rw [kernelSimple_box hh w hb _ hv (by rw [KVar.len_rows]; omega)]
    have : (assure2d v).rows = [] := by
      rw [← List.length_eq_zero_iff, KVar.len_rows, h0]
    simp [this, bind, Except.bind, meanOrNan]

example := (C47_short_data (.one [7]) (KVar.wf_one _) (3/2) (by norm_num) 1 (.num 2) (by norm_num [Base.Valid])).1 rfl

/-- An integer bandwidth is the same as the float of equal value. -/
theorem C47_int_bandwidth (n : Int) (k : Kernel) (w : Int) (args : List KArg) (b : Base) :
    kernelEntropy args ⟨.int n, k, w⟩ b = kernelEntropy args ⟨.num n, k, w⟩ b := by
  have h : ∀ (a : Arr) (o : Option Arr), kdeDensity a o ⟨.int n, k, w⟩ = kdeDensity a o ⟨.num n, k, w⟩ := by
    intro a o
    unfold kdeDensity
    have : (PyArg.int n).posNumber = (PyArg.num (n : ℝ)).posNumber := by
      by_cases hn : 0 < n
      · simp [PyArg.posNumber, hn]
      · simp [PyArg.posNumber, hn]
    simp only [this]
  unfold kernelEntropy kernelEntropyLocal kernelSimple kernelCross
  simp only [h]

/-- No argument, more than two, tuples for cross-entropy and non-arrays are ValueErrors; local values of a
cross-entropy are unsupported. -/
theorem C47_argument_errors (cfg : KdeCfg) (b : Base) (p q : KVar) (vs : List KVar) (x y z : KArg) (r : List KArg) :
    kernelEntropy [] cfg b = .error .valueError ∧ kernelEntropy [.other] cfg b = .error .valueError ∧
    kernelEntropy [.tup vs, x] cfg b = .error .valueError ∧ kernelEntropy [x, .tup vs] cfg b = .error .valueError ∧
    kernelEntropy (x :: y :: z :: r) cfg b = .error .valueError ∧
    kernelEntropyLocal [.arr p, .arr q] cfg b = .error .unsupportedOperation := by
  refine ⟨rfl, rfl, ?_, ?_, ?_, rfl⟩ <;>
    simp [kernelEntropy, kernelEntropyLocal, bind, Except.bind]

end Verif
