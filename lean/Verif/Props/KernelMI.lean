import Verif.Props.Kernel3
import Verif.Props.MI

/-!
# C59: box-kernel mutual information

`kernelMI data (some 0) false (boxCfg h w) b` is `mutual_information(*data, approach="kernel", kernel="box",
bandwidth=h, workers=w, base=b)`.
-/

namespace Verif

open Spec

/-- samples of a variable, one list of coordinates per time -/
def KVar.samples (v : KVar) : List (List ℝ) := (assure2d v).rows

/-- at least two well-formed variables with `n` samples each -/
structure MIArgs (data : List KVar) (n : Nat) : Prop where
  two : 2 ≤ data.length
  pos : 0 < n
  len : ∀ v ∈ data, v.len = n
  wf : ∀ v ∈ data, v.WF

theorem MIArgs.aligned {data : List KVar} {n : Nat} (H : MIArgs data n) : Aligned n (data.map assure2d) := by
  intro a ha
  obtain ⟨v, hv, rfl⟩ := List.mem_map.1 ha
  exact ⟨by rw [KVar.len_rows, H.len v hv], H.wf v hv⟩

theorem kmiInit_zero {data : List KVar} {n : Nat} (H : MIArgs data n) : kmiInit data (some 0) false = .ok data := by
  have hall : data.all (fun d => decide (d.len = (data.headD (.one [])).len)) = true := by
    cases hd : data with
    | nil => have := H.two; rw [hd] at this; simp at this
    | cons v vs =>
      rw [List.all_eq_true]
      intro u hu
      rw [decide_eq_true_eq, List.headD_cons, H.len u (by rw [hd]; exact hu), H.len v (by rw [hd]; simp)]
  unfold kmiInit
  have := H.two
  rw [hall]
  simp [not_lt.2 this, bind, Except.bind, pure, Except.pure]

theorem samples_map (data : List KVar) : (data.map assure2d).map Arr.rows = data.map KVar.samples := by
  rw [List.map_map]; rfl

/-- Local values: log-ratio of the relative frequency of joint neighbours to the product of the relative frequencies
of the neighbours in every variable. -/
theorem C59_local (data : List KVar) (n : Nat) (H : MIArgs data n) (h : ℝ) (hh : 0 < h) (w : Int) (b : Base) (hb : b.Valid) :
    kernelMILocal data (some 0) false (boxCfg h w) b =
      .ok ((List.range n).map (fun t =>
        Real.log (((neighbours n h (data.map KVar.samples) t : ℝ) / n) /
          ((data.map KVar.samples).map (fun X => (neighbours n h [X] t : ℝ) / n)).prod) / b.ln)) := by
  unfold kernelMILocal
  rw [kmiInit_zero H]
  simp only [bind, Except.bind]
  rw [kernelMICalc_box H.pos (by have := H.two; intro h0; simp at h0; rw [h0] at this; simp at this) H.aligned hh w hb,
    samples_map]

example := C59_local [.one [0, 1, 3], .two ⟨2, [[0, 1], [1, 1], [3, 0]]⟩] 3 ⟨by simp, by decide, by simp [KVar.len],
  by simp [KVar.WF, assure2d, Points]⟩ (3/2) (by norm_num) 1 (.num 2) (by norm_num [Base.Valid])

/-- The global value is the box-kernel mutual information of the specification, for every number of variables and
dimensions. The bandwidth enters only through the neighbourhoods: all volume factors cancel. -/
theorem C59_value (data : List KVar) (n : Nat) (H : MIArgs data n) (h : ℝ) (hh : 0 < h) (w : Int) (b : Base) (hb : b.Valid) :
    kernelMI data (some 0) false (boxCfg h w) b = .ok (boxMI n h (data.map KVar.samples) / b.ln) := by
  unfold kernelMI
  rw [C59_local data n H h hh w b hb]
  simp only [bind, Except.bind]
  rw [meanOrNan_ok (by have := H.pos; simp; omega), mean_map_div]
  rfl

example := C59_value [.one [0, 1, 3], .one [2, 2, 0], .one [1, 0, 1]] 3 ⟨by simp, by decide, by simp [KVar.len],
  by simp [KVar.WF, assure2d, Points]⟩ (3/2) (by norm_num) 1 (.num 2) (by norm_num [Base.Valid])

/-- The order of the variables does not matter. -/
theorem C59_order (data data' : List KVar) (hp : data.Perm data') (n : Nat) (H : MIArgs data n) (h : ℝ) (hh : 0 < h)
    (w : Int) (b : Base) (hb : b.Valid) :
    ∃ v, kernelMI data (some 0) false (boxCfg h w) b = .ok v ∧ kernelMI data' (some 0) false (boxCfg h w) b = .ok v := by
  refine ⟨_, C59_value data n H h hh w b hb, ?_⟩
  rw [C59_value data' n ⟨by rw [← hp.length_eq]; exact H.two, H.pos, fun v hv => H.len v (hp.mem_iff.2 hv),
    fun v hv => H.wf v (hp.mem_iff.2 hv)⟩ h hh w b hb]
  congr 2
  unfold boxMI
  congr 1
  refine List.map_congr_left fun t _ => ?_
  rw [neighbours_congr (fun X => (hp.map KVar.samples).mem_iff), ((hp.map KVar.samples).map _).prod_eq]

example := C59_order [.one [0, 1, 3], .one [2, 2, 0]] [.one [2, 2, 0], .one [0, 1, 3]] (List.Perm.swap _ _ _) 3 ⟨by simp, by decide,
  by simp [KVar.len], by simp [KVar.WF, assure2d, Points]⟩ (3/2) (by norm_num) 1 (.num 2) (by norm_num [Base.Valid])

theorem mean_sub {α : Type} (l : List α) (f g : α → ℝ) :
    mean (l.map (fun x => f x - g x)) = mean (l.map f) - mean (l.map g) := by
  unfold mean
  rw [sum_map_sub', List.length_map, List.length_map, List.length_map, sub_div]

theorem mean_add {α : Type} (l : List α) (f g : α → ℝ) :
    mean (l.map (fun x => f x + g x)) = mean (l.map f) + mean (l.map g) := by
  unfold mean
  rw [sum_map_add', List.length_map, List.length_map, List.length_map, add_div]

theorem mean_list_sum {α β : Type} (l : List α) (L : List β) (f : β → α → ℝ) :
    mean (l.map (fun x => (L.map (fun c => f c x)).sum)) = (L.map (fun c => mean (l.map (f c)))).sum := by
  induction L with
  | nil => simp [mean, List.map_const']
  | cons c L ih => simp only [List.map_cons, List.sum_cons, mean_add, ih]

theorem log_prod_list {α : Type} (l : List α) (f : α → ℝ) (hf : ∀ a ∈ l, f a ≠ 0) :
    Real.log (l.map f).prod = (l.map (fun a => Real.log (f a))).sum := by
  induction l with
  | nil => simp
  | cons a l ih =>
    simp only [List.map_cons, List.prod_cons, List.sum_cons]
    rw [Real.log_mul (hf a (by simp)) (by
      intro h0
      rw [List.prod_eq_zero_iff] at h0
      obtain ⟨c, hc, hc0⟩ := List.mem_map.1 h0
      exact hf c (by simp [hc]) hc0), ih (fun c hc => hf c (by simp [hc]))]

theorem sum_map_mul_nat {α : Type} (l : List α) (f : α → Nat) (c : ℝ) :
    (l.map (fun a => (f a : ℝ) * c)).sum = ((l.map f).sum : ℕ) * c := by
  induction l with
  | nil => simp
  | cons a l ih => simp only [List.map_cons, List.sum_cons, ih]; push_cast; ring

/-- Mutual information is the sum of the kernel entropies of the variables minus their joint kernel entropy. -/
theorem C59_entropy_identity (data : List KVar) (n : Nat) (hn : 2 ≤ n) (H : MIArgs data n) (h : ℝ) (hh : 0 < h) (w : Int)
    (b : Base) (hb : b.Valid) :
    ∃ (Hs : KVar → ℝ) (J : ℝ), (∀ v ∈ data, kernelEntropy [.arr v] (boxCfg h w) b = .ok (Hs v)) ∧
      kernelEntropy [.tup data] (boxCfg h w) b = .ok J ∧
      kernelMI data (some 0) false (boxCfg h w) b = .ok ((data.map Hs).sum - J) := by
  have hn' : (0 : ℝ) < n := by exact_mod_cast H.pos
  refine ⟨fun v => mean ((List.range n).map (fun t => - Real.log ((neighbours n h [v.samples] t : ℝ) /
      (n * h ^ (assure2d v).cols)))) / b.ln, _, ?_, C47_joint data (by
        have := H.two; intro h0; rw [h0] at this; simp at this) n hn H.len H.wf h hh w b hb, ?_⟩
  · intro v hv
    rw [C47_entropy_value v (H.wf v hv) (by rw [H.len v hv]; exact hn) h hh w b hb]
    congr 2
    unfold boxEntropy
    have hl : (assure2d v).rows.length = n := by rw [KVar.len_rows, H.len v hv]
    conv_lhs => rw [list_eq_range (assure2d v).rows [] hl]
    rw [List.map_map]
    congr 1
    refine List.map_congr_left fun t ht => ?_
    rw [← list_eq_range (assure2d v).rows [] hl]
    simp only [Function.comp, boxDensity, hl, boxCount_arr hl]
    rfl
  · rw [C59_value data n H h hh w b hb]
    congr 1
    have e : (data.map (fun v => mean ((List.range n).map (fun t => - Real.log ((neighbours n h [v.samples] t : ℝ) /
      (n * h ^ (assure2d v).cols)))) / b.ln)).sum =
      mean ((List.range n).map (fun t => (data.map (fun v => - Real.log ((neighbours n h [v.samples] t : ℝ) /
      (n * h ^ (assure2d v).cols)))).sum)) / b.ln := by
      rw [sum_map_div_const, mean_list_sum]
    rw [e, ← sub_div, ← mean_sub]
    congr 1
    unfold boxMI
    congr 1
    refine List.map_congr_left fun t ht => ?_
    have hpos : ∀ X, (0 : ℝ) < neighbours n h X t := fun X => by
      exact_mod_cast neighbours_pos hh.le X (List.mem_range.1 ht)
    have hpr : 0 < ((data.map KVar.samples).map (fun X => (neighbours n h [X] t : ℝ) / n)).prod := by
      apply List.prod_pos
      intro x hx
      obtain ⟨X, _, rfl⟩ := List.mem_map.1 hx
      have := hpos [X]
      positivity
    have hj := hpos (data.map KVar.samples)
    rw [Real.log_div (by positivity) hpr.ne', List.map_map, log_prod_list _ _ (fun v _ => by
      have := hpos [v.samples]; simp only [Function.comp]; positivity)]
    have e1 : ∀ v : KVar, - Real.log ((neighbours n h [v.samples] t : ℝ) / (n * h ^ (assure2d v).cols)) =
        - Real.log ((neighbours n h [v.samples] t : ℝ) / n) + ((assure2d v).cols : ℝ) * Real.log h := by
      intro v
      have := hpos [v.samples]
      rw [Real.log_div this.ne' (by positivity), Real.log_div this.ne' hn'.ne', Real.log_mul hn'.ne' (by positivity),
        Real.log_pow]
      ring
    have e2 : (data.map (fun v => - Real.log ((neighbours n h [v.samples] t : ℝ) / (n * h ^ (assure2d v).cols)))).sum =
        - (data.map (fun v => Real.log ((neighbours n h [v.samples] t : ℝ) / n))).sum +
          ((data.map (fun v => (assure2d v).cols)).sum : ℕ) * Real.log h := by
      rw [List.map_congr_left (fun v _ => e1 v), sum_map_add', sum_map_mul_nat,
        sum_map_neg' _ (fun v : KVar => Real.log ((neighbours n h [v.samples] t : ℝ) / n))]
    rw [e2]
    have e3 : neighbours n h (data.map (fun v => (assure2d v).rows)) t = neighbours n h (data.map KVar.samples) t := rfl
    rw [e3, Real.log_div hj.ne' hn'.ne', Real.log_div (y := (n : ℝ) * _) hj.ne' (by positivity),
      Real.log_mul hn'.ne' (by positivity), Real.log_pow]
    simp only [Function.comp_def]
    ring

example := C59_entropy_identity [.one [0, 1, 3], .one [2, 2, 0]] 3 (by decide) ⟨by simp, by decide, by simp [KVar.len],
  by simp [KVar.WF, assure2d, Points]⟩ (3/2) (by norm_num) 1 (.num 2) (by norm_num [Base.Valid])

/-- Mutual information of a variable with itself is its entropy minus the log-volume of the box. -/
theorem C59_self (x : KVar) (n : Nat) (hn : 2 ≤ n) (hl : x.len = n) (hwf : x.WF) (h : ℝ) (hh : 0 < h) (w : Int) (b : Base)
    (hb : b.Valid) :
    ∃ Hx, kernelEntropy [.arr x] (boxCfg h w) b = .ok Hx ∧
      kernelMI [x, x] (some 0) false (boxCfg h w) b = .ok (Hx - (assure2d x).cols * Real.log h / b.ln) := by
  have H : MIArgs [x, x] n := ⟨by simp, by omega, by simp [hl], by simp [hwf]⟩
  have hn' : (0 : ℝ) < n := by exact_mod_cast H.pos
  refine ⟨_, C47_entropy_value x hwf (by omega) h hh w b hb, ?_⟩
  rw [C59_value _ n H h hh w b hb]
  congr 1
  rw [← sub_div]
  congr 1
  have hl' : (assure2d x).rows.length = n := by rw [KVar.len_rows, hl]
  unfold boxMI boxEntropy
  have e : (assure2d x).cols * Real.log h = mean ((List.range n).map (fun _ : Nat => (assure2d x).cols * Real.log h)) := by
    unfold mean
    rw [List.map_const', List.sum_replicate, List.length_replicate, List.length_range, nsmul_eq_mul]
    field_simp
  have e0 : (assure2d x).rows.map (fun y => - Real.log (boxDensity (assure2d x).rows (assure2d x).cols h y)) =
      (List.range n).map (fun t => - Real.log ((neighbours n h [x.samples] t : ℝ) / (n * h ^ (assure2d x).cols))) := by
    conv_lhs => rw [list_eq_range (assure2d x).rows [] hl']
    rw [List.map_map]
    refine List.map_congr_left fun t ht => ?_
    rw [← list_eq_range (assure2d x).rows [] hl']
    simp only [Function.comp, boxDensity, hl', boxCount_arr hl']
    rfl
  rw [e, e0, ← mean_sub]
  congr 1
  refine List.map_congr_left fun t ht => ?_
  have hp : (0 : ℝ) < neighbours n h [x.samples] t := by exact_mod_cast neighbours_pos hh.le _ (List.mem_range.1 ht)
  simp only [List.map_cons, List.map_nil, List.prod_cons, List.prod_nil, mul_one]
  rw [neighbours_congr (vars := [x.samples, x.samples]) (vars' := [x.samples]) (fun X => by simp)]
  rw [Real.log_div hp.ne' (by positivity), Real.log_mul hn'.ne' (by positivity), Real.log_pow]
  rw [show (neighbours n h [x.samples] t : ℝ) / n / ((neighbours n h [x.samples] t : ℝ) / n * ((neighbours n h [x.samples] t : ℝ) / n))
      = n / neighbours n h [x.samples] t by field_simp, Real.log_div hn'.ne' hp.ne']
  ring

example := C59_self (.one [0, 1, 3]) 3 (by decide) rfl (KVar.wf_one _) (3/2) (by norm_num) 1 (.num 2) (by norm_num [Base.Valid])

theorem mean_le_mean {α : Type} {l : List α} {f g : α → ℝ} (hf : ∀ x ∈ l, f x ≤ g x) :
    mean (l.map f) ≤ mean (l.map g) := by
  unfold mean
  rw [List.length_map, List.length_map]
  apply div_le_div_of_nonneg_right _ (Nat.cast_nonneg _)
  exact List.sum_le_sum hf

/-- No variable carries more information about another than about itself, and `|I| ≤ log n`. -/
theorem C59_bounds (x y : KVar) (n : Nat) (H : MIArgs [x, y] n) (h : ℝ) (hh : 0 < h) (w : Int) (b : Base) (hb : b.Std) :
    ∃ I Ix Iy, kernelMI [x, y] (some 0) false (boxCfg h w) b = .ok I ∧
      kernelMI [x, x] (some 0) false (boxCfg h w) b = .ok Ix ∧ kernelMI [y, y] (some 0) false (boxCfg h w) b = .ok Iy ∧
      I ≤ Ix ∧ I ≤ Iy ∧ Ix ≤ Real.log n / b.ln ∧ - (Real.log n / b.ln) ≤ I := by
  have Hx : MIArgs [x, x] n := ⟨by simp, H.pos, by simp [H.len x (by simp)], by simp [H.wf x (by simp)]⟩
  have Hy : MIArgs [y, y] n := ⟨by simp, H.pos, by simp [H.len y (by simp)], by simp [H.wf y (by simp)]⟩
  refine ⟨_, _, _, C59_value _ n H h hh w b hb.valid, C59_value _ n Hx h hh w b hb.valid, C59_value _ n Hy h hh w b hb.valid, ?_⟩
  have hn' : (0 : ℝ) < n := by exact_mod_cast H.pos
  have hne : List.range n ≠ [] := by have := H.pos; simp; omega
  have hpos : ∀ t ∈ List.range n, ∀ X, (0 : ℝ) < neighbours n h X t := fun t ht X => by
    exact_mod_cast neighbours_pos hh.le X (List.mem_range.1 ht)
  have hle : ∀ t X, (neighbours n h X t : ℝ) ≤ n := fun t X => by exact_mod_cast neighbours_le n h X t
  have hge : ∀ t ∈ List.range n, ∀ X, (1 : ℝ) ≤ neighbours n h X t := fun t ht X => by
    exact_mod_cast neighbours_pos hh.le X (List.mem_range.1 ht)
  have hself : ∀ z : KVar, ∀ t, neighbours n h [z.samples, z.samples] t = neighbours n h [z.samples] t := fun z t =>
    neighbours_congr (fun X => by simp) t
  simp only [List.map_cons, List.map_nil, boxMI, List.prod_cons, List.prod_nil, mul_one, hself]
  have hbl := hb.ln_pos
  have key : ∀ t ∈ List.range n, ∀ z : KVar, (neighbours n h [z.samples] t : ℝ) / n /
      ((neighbours n h [z.samples] t : ℝ) / n * ((neighbours n h [z.samples] t : ℝ) / n)) = n / neighbours n h [z.samples] t := by
    intro t ht z
    have := hpos t ht [z.samples]
    field_simp
  refine ⟨div_le_div_of_nonneg_right (mean_le_mean fun t ht => ?_) hbl.le,
    div_le_div_of_nonneg_right (mean_le_mean fun t ht => ?_) hbl.le,
    div_le_div_of_nonneg_right (mean_bounds hne (lo := 0) (fun t ht => ⟨?_, ?_⟩)).2 hbl.le, ?_⟩
  · have h1 := hpos t ht [x.samples]
    have h2 := hpos t ht [y.samples]
    have h3 := hpos t ht [x.samples, y.samples]
    have h4 : (neighbours n h [x.samples, y.samples] t : ℝ) ≤ neighbours n h [y.samples] t := by
      exact_mod_cast neighbours_anti (fun X hX => by simp at hX; simp [hX]) t
    rw [key t ht x]
    apply Real.log_le_log (by positivity)
    rw [div_le_div_iff₀ (by positivity) h1]
    field_simp
    nlinarith
  · have h1 := hpos t ht [x.samples]
    have h2 := hpos t ht [y.samples]
    have h3 := hpos t ht [x.samples, y.samples]
    have h4 : (neighbours n h [x.samples, y.samples] t : ℝ) ≤ neighbours n h [x.samples] t := by
      exact_mod_cast neighbours_anti (fun X hX => by simp at hX; simp [hX]) t
    rw [key t ht y]
    apply Real.log_le_log (by positivity)
    rw [div_le_div_iff₀ (by positivity) h2]
    field_simp
    nlinarith
  · rw [key t ht x]
    apply Real.log_nonneg
    rw [le_div_iff₀ (hpos t ht _), one_mul]
    exact hle _ _
  · rw [key t ht x]
    apply Real.log_le_log (by have := hpos t ht [x.samples]; positivity)
    rw [div_le_iff₀ (hpos t ht _)]
    have := hge t ht [x.samples]
    nlinarith
  · rw [← neg_div]
    apply div_le_div_of_nonneg_right _ hbl.le
    refine (mean_bounds hne (hi := Real.log n) (fun t ht => ?_)).1
    have h1 := hpos t ht [x.samples]
    have h2 := hpos t ht [y.samples]
    have h3 := hpos t ht [x.samples, y.samples]
    have hle1 := hle t [x.samples]
    have hle2 := hle t [y.samples]
    have hle3 : (neighbours n h [x.samples, y.samples] t : ℝ) ≤ neighbours n h [y.samples] t := by
      exact_mod_cast neighbours_anti (fun X hX => by simp at hX; simp [hX]) t
    have hge3 := hge t ht [x.samples, y.samples]
    have hge1 := hge t ht [x.samples]
    constructor
    · rw [← Real.log_inv]
      apply Real.log_le_log (by positivity)
      rw [le_div_iff₀ (by positivity), inv_eq_one_div]
      field_simp
      nlinarith [mul_le_mul hle1 hle2 h2.le hn'.le]
    · apply Real.log_le_log (by positivity)
      rw [div_le_iff₀ (by positivity)]
      field_simp
      nlinarith

example := C59_bounds (.one [0, 1, 3]) (.one [2, 2, 0]) 3 ⟨by simp, by decide, by simp [KVar.len], by simp [KVar.WF, assure2d, Points]⟩ (3/2) (by norm_num) 1 (.num 2) (by norm_num [Base.Std])

/-- A constant variable carries no information. -/
theorem C59_constant (x : KVar) (n : Nat) (hn : 0 < n) (hl : x.len = n) (hwf : x.WF) (c h : ℝ) (hh : 0 < h) (w : Int)
    (b : Base) (hb : b.Valid) :
    kernelMI [x, .one (List.replicate n c)] (some 0) false (boxCfg h w) b = .ok 0 := by
  have H : MIArgs [x, .one (List.replicate n c)] n :=
    ⟨by simp, hn, by
      intro v hv
      simp only [List.mem_cons, List.not_mem_nil, or_false] at hv
      rcases hv with rfl | rfl
      · exact hl
      · simp [KVar.len], by simp [hwf, KVar.wf_one]⟩
  rw [C59_value _ n H h hh w b hb]
  congr 1
  have hn' : (0 : ℝ) < n := by exact_mod_cast hn
  have hbox : ∀ t s, t < n → s < n → InBox h ((KVar.one (List.replicate n c)).samples.getD t [])
      ((KVar.one (List.replicate n c)).samples.getD s []) := by
    intro t s ht hs
    have : ∀ u, u < n → (KVar.one (List.replicate n c)).samples.getD u [] = [c] := by
      intro u hu
      simp [KVar.samples, assure2d, List.getD_eq_getElem?_getD, hu]
    rw [this t ht, this s hs]
    exact inBox_self hh.le _
  have hc : ∀ t, t < n → neighbours n h [(KVar.one (List.replicate n c)).samples] t = n := by
    intro t ht
    unfold neighbours
    conv_rhs => rw [← List.length_range (n := n)]
    rw [List.length_filter_eq_length_iff]
    intro s hs
    simpa using hbox t s ht (List.mem_range.1 hs)
  have hj : ∀ t, t < n → neighbours n h [x.samples, (KVar.one (List.replicate n c)).samples] t =
      neighbours n h [x.samples] t := by
    intro t ht
    unfold neighbours
    congr 1
    refine List.filter_congr fun s hs => ?_
    have := hbox t s ht (List.mem_range.1 hs)
    simp only [decide_eq_decide, List.mem_cons, List.not_mem_nil, or_false, forall_eq_or_imp, forall_eq, this, and_true]
  unfold boxMI
  have : (List.range n).map (fun t => Real.log (((neighbours n h ([x, .one (List.replicate n c)].map KVar.samples) t : ℝ) / n) /
    (([x, .one (List.replicate n c)].map KVar.samples).map (fun X => (neighbours n h [X] t : ℝ) / n)).prod)) =
      (List.range n).map (fun _ => (0 : ℝ)) := by
    refine List.map_congr_left fun t ht => ?_
    have ht' := List.mem_range.1 ht
    have hp : (0 : ℝ) < neighbours n h [x.samples] t := by exact_mod_cast neighbours_pos hh.le _ ht'
    simp only [List.map_cons, List.map_nil, List.prod_cons, List.prod_nil, mul_one]
    rw [hc t ht', hj t ht', div_self hn'.ne', mul_one, div_self (by positivity), Real.log_one]
  rw [this]
  simp [mean]

example := C59_constant (.one [0, 1, 3]) 3 (by decide) rfl (KVar.wf_one _) 7 (3/2) (by norm_num) 1 (.num 2) (by norm_num [Base.Valid])

/-- Unlike the plug-in estimator, the box-kernel mutual information can be negative. -/
theorem C59_can_be_negative :
    kernelMI [.one [0, 1, 2], .one [0, 2, 1]] (some 0) false (boxCfg 2) .e = .ok (Real.log (3 / 4) / 3) ∧
      Real.log (3 / 4) / 3 < 0 := by
  constructor
  · rw [C59_value _ 3 ⟨by simp, by simp, by simp [KVar.len], by simp [KVar.wf_one]⟩ 2 (by norm_num) 1 .e trivial]
    congr 1
    have hb : ∀ a c : ℝ, InBox 2 [a] [c] ↔ |a - c| ≤ 1 := by
      intro a c
      constructor
      · intro H
        have := H 0 (by simp)
        simpa using this
      · intro H i hi
        simp at hi
        subst hi
        simpa using H
    have hr : List.range 3 = [0, 1, 2] := rfl
    simp [boxMI, neighbours, KVar.samples, assure2d, hr, hb, List.filter_cons, Base.ln, mean]
    norm_num [abs_le]
  · apply div_neg_of_neg_of_pos _ (by norm_num)
    exact Real.log_neg (by norm_num) (by norm_num)

end Verif
