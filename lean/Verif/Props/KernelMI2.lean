import Verif.Props.KernelMI
import Verif.Props.TE3

/-!
# C59 (continued): kernel mutual information of well-separated data, invariances, offset, errors;
# C49: normalisation
-/

namespace Verif

open Spec

/-- distinct samples of the variable never share a box -/
def Separated (h : ℝ) (X : List (List ℝ)) : Prop := ∀ x ∈ X, ∀ y ∈ X, InBox h x y → x = y

theorem getD_mem_self {α : Type} {X : List α} {n t : Nat} (d : α) (hl : X.length = n) (ht : t < n) : X.getD t d ∈ X := by
  have : t < X.length := by omega
  rw [List.getD_eq_getElem?_getD, List.getElem?_eq_getElem this]
  exact List.getElem_mem this

open Classical in
theorem neighbours_separated {n : Nat} {h : ℝ} (hh : 0 ≤ h) {vars : List (List (List ℝ))}
    (hl : ∀ X ∈ vars, X.length = n) (hs : ∀ X ∈ vars, Separated h X) {t : Nat} (ht : t < n) :
    neighbours n h vars t = cnt (Spec.rows n vars) (Spec.row vars t) := by
  unfold neighbours cnt Spec.rows
  rw [List.countP_map, List.countP_eq_length_filter]
  congr 1
  refine List.filter_congr fun s hs' => ?_
  simp only [Function.comp, decide_eq_decide]
  have hs'' := List.mem_range.1 hs'
  constructor
  · intro H
    refine List.map_congr_left fun X hX => ?_
    exact (hs X hX _ (getD_mem_self [] (hl X hX) ht) _ (getD_mem_self [] (hl X hX) hs'') (H X hX)).symm
  · intro H X hX
    have := List.map_inj_left.1 H X hX
    have e : X.getD s [] = X.getD t [] := this
    rw [e]
    exact inBox_self hh _

open Classical in
theorem cnt_single {n : Nat} {X : List (List ℝ)} (hl : X.length = n) (t : Nat) :
    cnt (Spec.rows n [X]) (Spec.row [X] t) = cnt X (X.getD t []) := by
  unfold Spec.rows Spec.row
  rw [cnt_map]
  unfold cnt
  conv_rhs => rw [list_eq_range X [] hl, List.countP_map]
  rw [← list_eq_range X [] hl]
  congr 1
  funext s
  simp [Function.comp]
  rfl

open Classical in
theorem boxMI_separated {n : Nat} (hn : 0 < n) {h : ℝ} (hh : 0 ≤ h) {vars : List (List (List ℝ))}
    (hl : ∀ X ∈ vars, X.length = n) (hs : ∀ X ∈ vars, Separated h X) :
    boxMI n h vars = Spec.totalCorrelation n vars := by
  have hn' : (0 : ℝ) < n := by exact_mod_cast hn
  unfold boxMI Spec.totalCorrelation
  have e1 : Spec.entropy (Spec.rows n vars) = mean ((List.range n).map (fun t =>
      - Real.log ((neighbours n h vars t : ℝ) / n))) := by
    rw [Spec.rows, entropy_map_eq, mean]
    rw [List.length_map]
    congr 2
    refine List.map_congr_left fun t ht => ?_
    rw [neighbours_separated hh hl hs (List.mem_range.1 ht), freq, List.length_map, List.length_range]
    rfl
  have e2 : ∀ X ∈ vars, Spec.entropy X = mean ((List.range n).map (fun t =>
      - Real.log ((neighbours n h [X] t : ℝ) / n))) := by
    intro X hX
    rw [entropy_eq_mean]
    conv_lhs => rw [list_eq_range X [] (hl X hX)]
    rw [List.map_map]
    congr 1
    refine List.map_congr_left fun t ht => ?_
    rw [← list_eq_range X [] (hl X hX)]
    rw [neighbours_separated hh (vars := [X]) (by simpa using hl X hX) (by simpa using hs X hX) (List.mem_range.1 ht),
      cnt_single (hl X hX)]
    simp only [Function.comp, freq, hl X hX]
  rw [e1, List.map_congr_left e2, ← mean_list_sum, ← mean_sub]
  congr 1
  refine List.map_congr_left fun t ht => ?_
  have hpos : ∀ X, (0 : ℝ) < neighbours n h X t := fun X => by
    exact_mod_cast neighbours_pos hh X (List.mem_range.1 ht)
  have hpr : 0 < (vars.map (fun X => (neighbours n h [X] t : ℝ) / n)).prod := by
    apply List.prod_pos
    intro x hx
    obtain ⟨X, _, rfl⟩ := List.mem_map.1 hx
    have := hpos [X]
    positivity
  have hj := hpos vars
  rw [Real.log_div (by positivity) hpr.ne', log_prod_list _ _ (fun X _ => by have := hpos [X]; positivity),
    sum_map_neg' _ (fun X => Real.log ((neighbours n h [X] t : ℝ) / n))]
  ring

open Classical in
/-- With a bandwidth below twice the smallest distance between distinct values, the kernel mutual information is the
plug-in total correlation of the samples (any number of variables and dimensions). -/
theorem C59_small_box (data : List KVar) (n : Nat) (H : MIArgs data n) (h : ℝ) (hh : 0 < h) (w : Int) (b : Base)
    (hb : b.Valid) (hs : ∀ v ∈ data, Separated h v.samples) :
    kernelMI data (some 0) false (boxCfg h w) b = .ok (Spec.totalCorrelation n (data.map KVar.samples) / b.ln) := by
  rw [C59_value data n H h hh w b hb, boxMI_separated H.pos hh.le]
  · intro X hX
    obtain ⟨v, hv, rfl⟩ := List.mem_map.1 hX
    rw [KVar.samples, KVar.len_rows, H.len v hv]
  · intro X hX
    obtain ⟨v, hv, rfl⟩ := List.mem_map.1 hX
    exact hs v hv

example := C59_small_box [.one [0, 1, 3], .one [2, 2, 0]] 3 ⟨by simp, by decide, by simp [KVar.len], by simp [KVar.WF, assure2d, Points]⟩
  1 (by norm_num) 1 (.num 2) (by norm_num [Base.Valid]) (by norm_num [Separated, KVar.samples, assure2d, InBox, abs_le])

theorem separated_int {h : ℝ} (hh2 : h < 2) (xs : List Int) :
    Separated h (KVar.one (xs.map (fun x : Int => (x : ℝ)))).samples := by
  intro x hx y hy hxy
  simp only [KVar.samples, assure2d, List.map_map, List.mem_map, Function.comp] at hx hy
  obtain ⟨m, _, rfl⟩ := hx
  obtain ⟨k, _, rfl⟩ := hy
  have := hxy 0 (by simp)
  simp only [List.getD_cons_zero] at this
  have h1 : |(m : ℝ) - k| < 1 := by linarith
  have h2 : |m - k| < 1 := by exact_mod_cast h1
  rw [Int.abs_lt_one_iff] at h2
  have : m = k := by omega
  rw [this]

/-- On integer data with a bandwidth below 2 the kernel approach and the discrete approach give the same mutual
information. -/
theorem C59_integer_data_agrees_with_discrete (xs ys : List Int) (hlen : xs.length = ys.length) (hne : xs ≠ [])
    (hov : xs.length < 2 ^ 32) (h : ℝ) (hh : 0 < h) (hh2 : h < 2) (w : Int) (b : Base) (hb : b.Std) :
    kernelMI [.one (xs.map (fun x : Int => (x : ℝ))), .one (ys.map (fun x : Int => (x : ℝ)))] (some 0) false (boxCfg h w) b =
      discreteMI (.all1D [xs, ys]) (some 0) b := by
  classical
  rw [C11_mi_is_textbook xs ys hlen hne hov b hb, C59_small_box _ xs.length ⟨by simp, List.length_pos_iff.2 hne, by
    simp [KVar.len, hlen], by simp [KVar.wf_one]⟩ h hh w b hb.valid (by
      intro v hv
      simp only [List.mem_cons, List.not_mem_nil, or_false] at hv
      rcases hv with rfl | rfl <;> exact separated_int hh2 _)]
  congr 2
  rw [← tc_pair xs ys hlen]
  unfold Spec.totalCorrelation
  have hs : ∀ zs : List Int, (KVar.one (zs.map (fun x : Int => (x : ℝ)))).samples = zs.map (fun x : Int => [(x : ℝ)]) := by
    intro zs; simp [KVar.samples, assure2d]
  have he : ∀ zs : List Int, Spec.entropy (zs.map (fun x : Int => ([(x : ℝ)] : List ℝ))) = Spec.entropy zs := by
    intro zs
    have := entropy_map_congr zs (fun x : Int => ([(x : ℝ)] : List ℝ)) id (fun u _ v _ => by simp)
    simpa using this
  simp only [List.map_cons, List.map_nil, hs, he]
  congr 1
  unfold Spec.rows
  apply entropy_map_congr
  intro u hu v hv
  have hu' := List.mem_range.1 hu
  have hv' := List.mem_range.1 hv
  have hg : ∀ (zs : List Int) (i : Nat), i < xs.length → zs.length = xs.length →
      (zs.map (fun x : Int => [(x : ℝ)])).getD i default = [((zs.getD i default : Int) : ℝ)] := by
    intro zs i hi hz
    have hi' : i < zs.length := by omega
    simp [List.getD_eq_getElem?_getD, hi']
  simp only [Spec.row, List.map_cons, List.map_nil, hg xs _ hu' rfl, hg xs _ hv' rfl, hg ys _ hu' hlen.symm,
    hg ys _ hv' hlen.symm, List.cons.injEq, and_true, Int.cast_inj]

example : kernelMI [.one ([1, 1, 2, 5].map (fun x : Int => (x : ℝ))), .one ([0, 1, 0, 1].map (fun x : Int => (x : ℝ)))]
    (some 0) false (boxCfg 1) (.num 2) = discreteMI (.all1D [[1, 1, 2, 5], [0, 1, 0, 1]]) (some 0) (.num 2) :=
  C59_integer_data_agrees_with_discrete [1, 1, 2, 5] [0, 1, 0, 1] rfl (by simp) (by norm_num) 1 one_pos (by norm_num) 1
    (.num 2) (by norm_num [Base.Std])

/-! ### Invariance -/

theorem neighbours_affine {n : Nat} {h c : ℝ} (hc : c ≠ 0) (L : List (List ℝ × ℝ)) (hl : ∀ p ∈ L, p.1.length = n) {t : Nat}
    (ht : t < n) :
    neighbours n (|c| * h) (L.map (fun p => (KVar.one (p.1.map (fun x => c * x + p.2))).samples)) t =
      neighbours n h (L.map (fun p => (KVar.one p.1).samples)) t := by
  unfold neighbours
  congr 1
  refine List.filter_congr fun s hs => ?_
  have hs' := List.mem_range.1 hs
  simp only [decide_eq_decide, List.mem_map, forall_exists_index, and_imp, forall_apply_eq_imp_iff₂]
  refine forall₂_congr fun p hp => ?_
  have hg : ∀ i, i < n → (KVar.one (p.1.map (fun x => c * x + p.2))).samples.getD i [] = [c * p.1.getD i 0 + p.2] := by
    intro i hi
    have : i < p.1.length := by rw [hl p hp]; exact hi
    simp [KVar.samples, assure2d, List.getD_eq_getElem?_getD, this]
  have hg' : ∀ i, i < n → (KVar.one p.1).samples.getD i [] = [p.1.getD i 0] := by
    intro i hi
    have : i < p.1.length := by rw [hl p hp]; exact hi
    simp [KVar.samples, assure2d, List.getD_eq_getElem?_getD, this]
  rw [hg t ht, hg s hs', hg' t ht, hg' s hs']
  have hb : ∀ (h a c : ℝ), InBox h [a] [c] ↔ |a - c| ≤ h / 2 := by
    intro h a c
    constructor
    · intro H
      simpa using H 0 (by simp)
    · intro H i hi
      simp at hi
      subst hi
      simpa using H
  rw [hb, hb, show c * p.1.getD t 0 + p.2 - (c * p.1.getD s 0 + p.2) = c * (p.1.getD t 0 - p.1.getD s 0) by ring, abs_mul,
    mul_div_assoc]
  exact mul_le_mul_iff_right₀ (abs_pos.2 hc)

/-- Shifting every variable by its own constant and scaling all of them together with the bandwidth does not change
the mutual information. `L` lists the series with their shifts. -/
theorem C59_affine (L : List (List ℝ × ℝ)) (n : Nat) (h2 : 2 ≤ L.length) (hn : 0 < n) (hl : ∀ p ∈ L, p.1.length = n)
    (c h : ℝ) (hc : c ≠ 0) (hh : 0 < h) (w : Int) (b : Base) (hb : b.Valid) :
    ∃ v, kernelMI (L.map (fun p => .one p.1)) (some 0) false (boxCfg h w) b = .ok v ∧
      kernelMI (L.map (fun p => .one (p.1.map (fun x => c * x + p.2)))) (some 0) false (boxCfg (|c| * h) w) b = .ok v := by
  have hc' : 0 < |c| := abs_pos.2 hc
  have H1 : MIArgs (L.map (fun p => KVar.one p.1)) n := ⟨by simpa using h2, hn, by
    intro v hv
    obtain ⟨p, hp, rfl⟩ := List.mem_map.1 hv
    simpa [KVar.len] using hl p hp, by
    intro v hv
    obtain ⟨p, hp, rfl⟩ := List.mem_map.1 hv
    exact KVar.wf_one _⟩
  have H2 : MIArgs (L.map (fun p => KVar.one (p.1.map (fun x => c * x + p.2)))) n := ⟨by simpa using h2, hn, by
    intro v hv
    obtain ⟨p, hp, rfl⟩ := List.mem_map.1 hv
    simpa [KVar.len] using hl p hp, by
    intro v hv
    obtain ⟨p, hp, rfl⟩ := List.mem_map.1 hv
    exact KVar.wf_one _⟩
  refine ⟨_, C59_value _ n H1 h hh w b hb, ?_⟩
  rw [C59_value _ n H2 (|c| * h) (by positivity) w b hb]
  congr 2
  unfold boxMI
  congr 1
  refine List.map_congr_left fun t ht => ?_
  have ht' := List.mem_range.1 ht
  have e1 := neighbours_affine (h := h) hc L hl ht'
  have e2 : ∀ p ∈ L, neighbours n (|c| * h) [(KVar.one (p.1.map (fun x => c * x + p.2))).samples] t =
      neighbours n h [(KVar.one p.1).samples] t := by
    intro p hp
    exact neighbours_affine (h := h) hc [p] (by simpa using hl p hp) ht'
  simp only [List.map_map, Function.comp_def] at e1 ⊢
  rw [e1]
  congr 2
  congr 1
  exact List.map_congr_left fun p hp => by rw [e2 p hp]

example := C59_affine [([0, 1, 3], 5), ([2, 2, 0], -1)] 3 (by decide) (by decide) (by simp) (-2) (3/2) (by norm_num) (by norm_num) 1 (.num 2) (by norm_num [Base.Valid])

/-! ### Offset and argument errors -/

/-- A positive offset `o` pairs `x[t]` with `y[t+o]`, a negative one the other way round. -/
theorem C59_offset (xs ys : List ℝ) (hlen : xs.length = ys.length) (o : Nat) (ho : 0 < o) (cfg : KdeCfg) (b : Base) :
    kernelMI [.one xs, .one ys] (some (o : Int)) false cfg b =
      kernelMI [.one (xs.take (xs.length - o)), .one (ys.drop o)] (some 0) false cfg b ∧
    kernelMI [.one xs, .one ys] (some (-(o : Int))) false cfg b =
      kernelMI [.one (xs.drop o), .one (ys.take (ys.length - o))] (some 0) false cfg b := by
  have ho' : (0 : Int) < o := by exact_mod_cast ho
  have hn1 : ¬ ((o : Int) < 0) := by omega
  have hpos : (o : Int) > 0 := ho'
  have hneg : ¬ (-(o : Int) > 0) := by omega
  have hneg' : -(o : Int) < 0 := by omega
  have e1 : kmiInit [.one xs, .one ys] (some (o : Int)) false =
      .ok [.one (xs.take (xs.length - o)), .one (ys.drop o)] := by
    simp only [kmiInit, KVar.slice, List.getD_cons_zero, List.getD_cons_succ, pySlice_stop_neg _ o ho, pySlice_start,
      if_pos hpos]
    simp [KVar.len, hlen, bind, Except.bind, pure, Except.pure]
  have e2 : kmiInit [.one xs, .one ys] (some (-(o : Int))) false =
      .ok [.one (xs.drop o), .one (ys.take (ys.length - o))] := by
    simp only [kmiInit, KVar.slice, List.getD_cons_zero, List.getD_cons_succ, neg_neg, pySlice_stop_neg _ o ho, pySlice_start,
      if_neg hneg, if_pos hneg']
    simp [KVar.len, hlen, bind, Except.bind, pure, Except.pure]
  have e3 : kmiInit [.one (xs.take (xs.length - o)), .one (ys.drop o)] (some 0) false =
      .ok [.one (xs.take (xs.length - o)), .one (ys.drop o)] := by
    simp [kmiInit, KVar.len, hlen, bind, Except.bind, pure, Except.pure]
  have e4 : kmiInit [.one (xs.drop o), .one (ys.take (ys.length - o))] (some 0) false =
      .ok [.one (xs.drop o), .one (ys.take (ys.length - o))] := by
    simp [kmiInit, KVar.len, hlen, bind, Except.bind, pure, Except.pure]
  simp only [kernelMI, kernelMILocal, e1, e2, e3, e4, and_self]

example := C59_offset [0, 1, 3] [2, 2, 0] rfl 1 (by decide) (boxCfg 1) .e

/-- Fewer than two variables, variables of different length, an offset with more than two variables: ValueError;
`offset=None` is a TypeError. -/
theorem C59_argument_errors (cfg : KdeCfg) (b : Base) (x y z : KVar) (r : List KVar) (o : Int) (nm : Bool) (hxy : x.len ≠ y.len) :
    kernelMI [] (some o) nm cfg b = .error .valueError ∧ kernelMI [x] (some o) nm cfg b = .error .valueError ∧
    kernelMI [x, y] (some o) nm cfg b = .error .valueError ∧
    (o ≠ 0 → kernelMI (x :: y :: z :: r) (some o) nm cfg b = .error .valueError) ∧
    kernelMI [x, x] none nm cfg b = .error .typeError := by
  refine ⟨?_, ?_, ?_, ?_, ?_⟩
  · simp [kernelMI, kernelMILocal, kmiInit, bind, Except.bind]
  · simp [kernelMI, kernelMILocal, kmiInit, bind, Except.bind]
  · simp [kernelMI, kernelMILocal, kmiInit, bind, Except.bind, Ne.symm hxy]
  · intro ho
    simp [kernelMI, kernelMILocal, kmiInit, bind, Except.bind, ho]
  · simp [kernelMI, kernelMILocal, kmiInit, bind, Except.bind]

example := C59_argument_errors (boxCfg 1) .e (.one [0, 1, 3]) (.one [2, 2]) (.one [0]) [] 1 false (by simp [KVar.len])

/-- Bandwidth and kernel are validated. -/
theorem C59_bad_bandwidth_or_kernel (cfg : KdeCfg) (hcfg : cfg.bandwidth.posNumber = none ∨ cfg.kernel = .unsupported)
    (data : List KVar) (n : Nat) (H : MIArgs data n) (b : Base) :
    kernelMI data (some 0) false cfg b = .error .valueError := by
  have hk : ∀ a o, kdeDensity a o cfg = .error .valueError := by
    intro a o
    unfold kdeDensity
    rcases hcfg with h | h
    · rw [h]
    · rw [h]
      cases cfg.bandwidth.posNumber with
      | none => rfl
      | some h => simp
  unfold kernelMI kernelMILocal kernelMICalc
  rw [kmiInit_zero H]
  simp only [bind, Except.bind]
  rw [stackArrs_ok (n := n) (by have := H.two; intro h0; simp at h0; rw [h0] at this; simp at this)
    (fun a ha => (H.aligned a ha).1)]
  simp only [hk]

example := C59_bad_bandwidth_or_kernel ⟨.num 1, .unsupported, 1⟩ (.inr rfl) [.one [0, 1, 3], .one [2, 2, 0]] 3
  ⟨by simp, by decide, by simp [KVar.len], by simp [KVar.WF, assure2d, Points]⟩ .e

end Verif
