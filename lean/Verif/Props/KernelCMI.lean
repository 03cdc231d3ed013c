import Verif.Props.Normalize
import Verif.Lemmas.KernelCMI
import Verif.Props.CMI

/-!
# C60: kernel conditional mutual information
-/

namespace Verif

open Spec

/-- the arguments of a conditional estimate on one-dimensional series -/
theorem kcmiInit_one {L : List (List ℝ)} {z : List ℝ} {n : Nat} (h2 : 2 ≤ L.length) (hl : ∀ xs ∈ L, xs.length = n)
    (hz : z.length = n) {o : Option Int} (ho : o = some 0 ∨ o = none) :
    kcmiInit (L.map KVar.one) (some (.one z)) o false = .ok (L.map KVar.one, .one z) := by
  match L, h2 with
  | x :: y :: r, _ =>
    have hx := hl x (by simp)
    have hy := hl y (by simp)
    simp [kcmiInit, ho, KVar.len, hx, hy, hz, pure, Except.pure]

/-- Local values for any number of one-dimensional variables: what the code computes. -/
theorem C60_local_n_variables (L : List (List ℝ)) (z : List ℝ) (n : Nat) (hn : 0 < n) (h2 : 2 ≤ L.length)
    (hl : ∀ xs ∈ L, xs.length = n) (hz : z.length = n) (h : ℝ) (hh : 0 < h) (w : Int) (b : Base) (hb : b.Valid)
    (o : Option Int) (ho : o = some 0 ∨ o = none) :
    kernelCMILocal (L.map KVar.one) (some (.one z)) o false (boxCfg h w) b =
      .ok ((List.range n).map (fun t =>
        Real.log (((neighbours n h (L.map smp ++ [smp z]) t : ℝ) / (n * h ^ (L.length + 1)) *
            ((neighbours n h [smp z] t : ℝ) / (n * h))) /
          (L.map (fun X => (neighbours n h [smp X, smp z] t : ℝ) / (n * h ^ 2))).prod) / b.ln)) := by
  unfold kernelCMILocal
  rw [kcmiInit_one h2 hl hz ho]
  simp only [bind, Except.bind]
  rw [List.map_map]
  exact kernelCMICalc_box hn hl hz hh w hb

example := C60_local_n_variables [[0, 1, 3], [2, 2, 0], [1, 0, 1]] [0, 0, 5] 3 (by decide) (by simp) (by simp) rfl (3/2) (by norm_num) 1 (.num 2) (by norm_num [Base.Valid]) none (.inr rfl)

/-- Local values for two one-dimensional variables: the log-ratio of neighbour counts; sample size and bandwidth cancel. -/
theorem C60_local (x y z : List ℝ) (n : Nat) (hn : 0 < n) (hx : x.length = n) (hy : y.length = n) (hz : z.length = n)
    (h : ℝ) (hh : 0 < h) (w : Int) (b : Base) (hb : b.Valid) (o : Option Int) (ho : o = some 0 ∨ o = none) :
    kernelCMILocal [.one x, .one y] (some (.one z)) o false (boxCfg h w) b =
      .ok ((List.range n).map (fun t =>
        Real.log (((neighbours n h [smp x, smp y, smp z] t : ℝ) * neighbours n h [smp z] t) /
          (neighbours n h [smp x, smp z] t * neighbours n h [smp y, smp z] t)) / b.ln)) := by
  have := C60_local_n_variables [x, y] z n hn (by simp) (by simp [hx, hy]) hz h hh w b hb o ho
  simp only [List.map_cons, List.map_nil] at this
  rw [this]
  congr 1
  refine List.map_congr_left fun t ht => ?_
  have hn' : (0 : ℝ) < n := by exact_mod_cast hn
  have ht' := List.mem_range.1 ht
  have p1 : (0 : ℝ) < neighbours n h [smp x, smp z] t := by exact_mod_cast neighbours_pos hh.le _ ht'
  have p2 : (0 : ℝ) < neighbours n h [smp y, smp z] t := by exact_mod_cast neighbours_pos hh.le _ ht'
  congr 2
  simp only [List.cons_append, List.nil_append, List.length_cons, List.length_nil, List.prod_cons, List.prod_nil]
  norm_num
  field_simp

example := C60_local [0, 1, 3] [2, 2, 0] [0, 0, 5] 3 (by decide) rfl rfl rfl (3/2) (by norm_num) 1 (.num 2) (by norm_num [Base.Valid]) (some 0) (.inl rfl)

/-- Value for two one-dimensional variables: the box-kernel conditional mutual information of the specification. -/
theorem C60_value (x y z : List ℝ) (n : Nat) (hn : 0 < n) (hx : x.length = n) (hy : y.length = n) (hz : z.length = n)
    (h : ℝ) (hh : 0 < h) (w : Int) (b : Base) (hb : b.Valid) (o : Option Int) (ho : o = some 0 ∨ o = none) :
    kernelCMI [.one x, .one y] (some (.one z)) o false (boxCfg h w) b =
      .ok (boxCMI n h (smp x) (smp y) (smp z) / b.ln) := by
  unfold kernelCMI
  rw [C60_local x y z n hn hx hy hz h hh w b hb o ho]
  simp only [bind, Except.bind]
  rw [meanOrNan_ok (by simp; omega), mean_map_div]
  rfl

example := C60_value [0, 1, 3] [2, 2, 0] [0, 0, 5] 3 (by decide) rfl rfl rfl (3/2) (by norm_num) 1 (.num 2) (by norm_num [Base.Valid]) (some 0) (.inl rfl)

/-- The two variables may be exchanged. -/
theorem C60_symmetric (x y z : List ℝ) (n : Nat) (hn : 0 < n) (hx : x.length = n) (hy : y.length = n) (hz : z.length = n)
    (h : ℝ) (hh : 0 < h) (w : Int) (b : Base) (hb : b.Valid) :
    ∃ v, kernelCMI [.one x, .one y] (some (.one z)) (some 0) false (boxCfg h w) b = .ok v ∧
      kernelCMI [.one y, .one x] (some (.one z)) (some 0) false (boxCfg h w) b = .ok v := by
  refine ⟨_, C60_value x y z n hn hx hy hz h hh w b hb _ (.inl rfl), ?_⟩
  rw [C60_value y x z n hn hy hx hz h hh w b hb _ (.inl rfl)]
  congr 2
  unfold boxCMI
  congr 1
  refine List.map_congr_left fun t _ => ?_
  rw [neighbours_congr (vars := [smp y, smp x, smp z]) (vars' := [smp x, smp y, smp z]) (by simp; tauto), mul_comm
    ((neighbours n h [smp y, smp z] t : ℝ))]

example := C60_symmetric [0, 1, 3] [2, 2, 0] [0, 0, 5] 3 (by decide) rfl rfl rfl (3/2) (by norm_num) 1 (.num 2) (by norm_num [Base.Valid])

theorem smp_getD {xs : List ℝ} {n t : Nat} (hx : xs.length = n) (ht : t < n) : (smp xs).getD t [] = [xs.getD t 0] :=
  col_getD hx ht

theorem smp_replicate_getD {n t : Nat} {c : ℝ} (ht : t < n) : (smp (List.replicate n c)).getD t [] = [c] := by
  rw [smp_getD (by simp) ht]
  simp [List.getD_eq_getElem?_getD, List.getElem?_replicate, ht]

/-- a constant series does not restrict the neighbours -/
theorem neighbours_constant {n : Nat} {h : ℝ} (hh : 0 ≤ h) (c : ℝ) (vs ws : List (List (List ℝ))) {t : Nat} (ht : t < n) :
    neighbours n h (vs ++ smp (List.replicate n c) :: ws) t = neighbours n h (vs ++ ws) t := by
  unfold neighbours
  congr 1
  refine List.filter_congr fun s hs => ?_
  simp only [decide_eq_decide]
  have hs' := List.mem_range.1 hs
  have : InBox h ((smp (List.replicate n c)).getD t []) ((smp (List.replicate n c)).getD s []) := by
    rw [smp_replicate_getD ht, smp_replicate_getD hs']
    exact inBox_self hh _
  constructor
  · intro H X hX
    apply H
    rcases List.mem_append.1 hX with h | h <;> simp [h]
  · intro H X hX
    rcases List.mem_append.1 hX with h | h
    · exact H X (by simp [h])
    · rcases List.mem_cons.1 h with rfl | h
      · exact this
      · exact H X (by simp [h])

theorem neighbours_nil (n : Nat) (h : ℝ) (t : Nat) : neighbours n h [] t = n := by
  simp [neighbours]

theorem neighbours_constant_single {n : Nat} {h : ℝ} (hh : 0 ≤ h) (c : ℝ) {t : Nat} (ht : t < n) :
    neighbours n h [smp (List.replicate n c)] t = n := by
  have := neighbours_constant hh c [] [] ht
  simpa [neighbours_nil] using this

/-- Conditioning on a constant is the unconditional kernel mutual information. -/
theorem C60_constant_condition (x y : List ℝ) (n : Nat) (hn : 0 < n) (hx : x.length = n) (hy : y.length = n) (c : ℝ)
    (h : ℝ) (hh : 0 < h) (w : Int) (b : Base) (hb : b.Valid) :
    kernelCMI [.one x, .one y] (some (.one (List.replicate n c))) (some 0) false (boxCfg h w) b =
      kernelMI [.one x, .one y] (some 0) false (boxCfg h w) b := by
  rw [C60_value x y _ n hn hx hy (by simp) h hh w b hb _ (.inl rfl), C59_value [.one x, .one y] n ⟨by simp, hn, by
    simp [KVar.len, hx, hy], by simp [KVar.wf_one]⟩ h hh w b hb]
  congr 2
  unfold boxCMI boxMI
  congr 1
  refine List.map_congr_left fun t ht => ?_
  have ht' := List.mem_range.1 ht
  have hn' : (0 : ℝ) < n := by exact_mod_cast hn
  have e1 := neighbours_constant hh.le c [smp x, smp y] [] ht'
  have e2 := neighbours_constant hh.le c [smp x] [] ht'
  have e3 := neighbours_constant hh.le c [smp y] [] ht'
  simp only [List.cons_append, List.nil_append] at e1 e2 e3
  rw [e1, e2, e3, neighbours_constant_single hh.le c ht']
  congr 1
  have p1 : (0 : ℝ) < neighbours n h [smp x] t := by exact_mod_cast neighbours_pos hh.le _ ht'
  have p2 : (0 : ℝ) < neighbours n h [smp y] t := by exact_mod_cast neighbours_pos hh.le _ ht'
  have es : ∀ u : List ℝ, (KVar.one u).samples = smp u := fun u => rfl
  simp only [List.map_cons, List.map_nil, List.prod_cons, List.prod_nil, es]
  field_simp

example := C60_constant_condition [0, 1, 3] [2, 2, 0] 3 (by decide) rfl rfl 7 (3/2) (by norm_num) 1 (.num 2) (by norm_num [Base.Valid])

/-- A constant variable carries no information. -/
theorem C60_constant_variable (x z : List ℝ) (n : Nat) (hn : 0 < n) (hx : x.length = n) (hz : z.length = n) (c : ℝ)
    (h : ℝ) (hh : 0 < h) (w : Int) (b : Base) (hb : b.Valid) :
    kernelCMI [.one x, .one (List.replicate n c)] (some (.one z)) (some 0) false (boxCfg h w) b = .ok 0 := by
  rw [C60_value x _ z n hn hx (by simp) hz h hh w b hb _ (.inl rfl)]
  have : boxCMI n h (smp x) (smp (List.replicate n c)) (smp z) = 0 := by
    unfold boxCMI mean
    rw [List.sum_eq_zero, zero_div]
    intro v hv
    obtain ⟨t, ht, rfl⟩ := List.mem_map.1 hv
    have ht' := List.mem_range.1 ht
    have e1 := neighbours_constant hh.le c [smp x] [smp z] ht'
    have e2 := neighbours_constant hh.le c [] [smp z] ht'
    simp only [List.cons_append, List.nil_append] at e1 e2
    have p1 : (0 : ℝ) < neighbours n h [smp x, smp z] t := by exact_mod_cast neighbours_pos hh.le _ ht'
    have p2 : (0 : ℝ) < neighbours n h [smp z] t := by exact_mod_cast neighbours_pos hh.le _ ht'
    rw [e1, e2, div_self (by positivity), Real.log_one]
  rw [this, zero_div]

example := C60_constant_variable [0, 1, 3] [2, 2, 0] 3 (by decide) rfl rfl 7 (3/2) (by norm_num) 1 (.num 2) (by norm_num [Base.Valid])

/-- A variable that equals the condition carries no further information. -/
theorem C60_variable_is_condition (x z : List ℝ) (n : Nat) (hn : 0 < n) (hx : x.length = n) (hz : z.length = n)
    (h : ℝ) (hh : 0 < h) (w : Int) (b : Base) (hb : b.Valid) :
    kernelCMI [.one x, .one z] (some (.one z)) (some 0) false (boxCfg h w) b = .ok 0 := by
  rw [C60_value x _ z n hn hx hz hz h hh w b hb _ (.inl rfl)]
  have : boxCMI n h (smp x) (smp z) (smp z) = 0 := by
    unfold boxCMI mean
    rw [List.sum_eq_zero, zero_div]
    intro v hv
    obtain ⟨t, ht, rfl⟩ := List.mem_map.1 hv
    have ht' := List.mem_range.1 ht
    have p1 : (0 : ℝ) < neighbours n h [smp x, smp z] t := by exact_mod_cast neighbours_pos hh.le _ ht'
    have p2 : (0 : ℝ) < neighbours n h [smp z] t := by exact_mod_cast neighbours_pos hh.le _ ht'
    rw [neighbours_congr (vars := [smp x, smp z, smp z]) (vars' := [smp x, smp z]) (by simp),
      neighbours_congr (vars := [smp z, smp z]) (vars' := [smp z]) (by simp), div_self (by positivity), Real.log_one]
  rw [this, zero_div]

example := C60_variable_is_condition [0, 1, 3] [2, 2, 0] 3 (by decide) rfl rfl (3/2) (by norm_num) 1 (.num 2) (by norm_num [Base.Valid])

/-- The estimate lies within ± log N. -/
theorem C60_bounds (x y z : List ℝ) (n : Nat) (hn : 0 < n) (hx : x.length = n) (hy : y.length = n) (hz : z.length = n)
    (h : ℝ) (hh : 0 < h) (w : Int) (b : Base) (hb : b.Std) :
    ∃ v, kernelCMI [.one x, .one y] (some (.one z)) (some 0) false (boxCfg h w) b = .ok v ∧
      |v| ≤ Real.log n / b.ln := by
  refine ⟨_, C60_value x y z n hn hx hy hz h hh w b hb.valid _ (.inl rfl), ?_⟩
  rw [abs_div, abs_of_pos hb.ln_pos]
  refine div_le_div_of_nonneg_right ?_ hb.ln_pos.le
  have hne : List.range n ≠ [] := by simp; omega
  have hn' : (0 : ℝ) < n := by exact_mod_cast hn
  have key : ∀ t ∈ List.range n, - Real.log n ≤ Real.log (((neighbours n h [smp x, smp y, smp z] t : ℝ) *
      neighbours n h [smp z] t) / (neighbours n h [smp x, smp z] t * neighbours n h [smp y, smp z] t)) ∧
      Real.log (((neighbours n h [smp x, smp y, smp z] t : ℝ) *
      neighbours n h [smp z] t) / (neighbours n h [smp x, smp z] t * neighbours n h [smp y, smp z] t)) ≤ Real.log n := by
    intro t ht
    have ht' := List.mem_range.1 ht
    have p1 : (1 : ℝ) ≤ neighbours n h [smp x, smp z] t := by exact_mod_cast neighbours_pos hh.le _ ht'
    have p2 : (1 : ℝ) ≤ neighbours n h [smp y, smp z] t := by exact_mod_cast neighbours_pos hh.le _ ht'
    have p3 : (1 : ℝ) ≤ neighbours n h [smp x, smp y, smp z] t := by exact_mod_cast neighbours_pos hh.le _ ht'
    have p4 : (1 : ℝ) ≤ neighbours n h [smp z] t := by exact_mod_cast neighbours_pos hh.le _ ht'
    have q1 : (neighbours n h [smp x, smp y, smp z] t : ℝ) ≤ neighbours n h [smp x, smp z] t := by
      exact_mod_cast neighbours_anti (by simp) t
    have q2 : (neighbours n h [smp x, smp z] t : ℝ) ≤ neighbours n h [smp z] t := by
      exact_mod_cast neighbours_anti (by simp) t
    have q3 : (neighbours n h [smp y, smp z] t : ℝ) ≤ n := by exact_mod_cast neighbours_le n h _ t
    have q4 : (neighbours n h [smp z] t : ℝ) ≤ n := by exact_mod_cast neighbours_le n h _ t
    constructor
    · rw [← Real.log_inv]
      apply Real.log_le_log (by positivity)
      rw [inv_eq_one_div, div_le_div_iff₀ hn' (by positivity)]
      nlinarith [mul_le_mul q2 q3 (by linarith) (by linarith), mul_le_mul p3 (le_refl ((neighbours n h [smp z] t : ℝ) * n))
        (by positivity) (by linarith)]
    · apply Real.log_le_log (by positivity)
      rw [div_le_iff₀ (by positivity)]
      nlinarith [mul_le_mul q1 q4 (by linarith) (by linarith), mul_le_mul p2 (le_refl ((neighbours n h [smp x, smp z] t : ℝ) * n))
        (by positivity) (by linarith)]
  rw [abs_le]
  exact mean_bounds hne key

example := C60_bounds [0, 1, 3] [2, 2, 0] [0, 0, 5] 3 (by decide) rfl rfl rfl (3/2) (by norm_num) 1 (.num 2) (by norm_num [Base.Std])

/-! ### Small boxes: agreement with the discrete estimator -/

open Classical in
/-- On separated data the box-kernel conditional mutual information is the textbook one. -/
theorem boxCMI_separated {n : Nat} {h : ℝ} (hh : 0 ≤ h) (f g z : Nat → List ℝ)
    (hf : ∀ s < n, ∀ t < n, InBox h (f t) (f s) → f s = f t) (hg : ∀ s < n, ∀ t < n, InBox h (g t) (g s) → g s = g t)
    (hz : ∀ s < n, ∀ t < n, InBox h (z t) (z s) → z s = z t) :
    boxCMI n h ((List.range n).map f) ((List.range n).map g) ((List.range n).map z) =
      Spec.cmi ((List.range n).map f) ((List.range n).map g) ((List.range n).map z) := by
  have hget : ∀ (u : Nat → List ℝ) t, t < n → ((List.range n).map u).getD t [] = u t := by
    intro u t ht; simp [List.getD_eq_getElem?_getD, ht]
  have hiff : ∀ (u : Nat → List ℝ), (∀ s < n, ∀ t < n, InBox h (u t) (u s) → u s = u t) → ∀ s < n, ∀ t < n,
      (InBox h (((List.range n).map u).getD t []) (((List.range n).map u).getD s []) ↔ u s = u t) := by
    intro u hu s hs t ht
    rw [hget u t ht, hget u s hs]
    exact ⟨hu s hs t ht, fun e => e ▸ inBox_self hh _⟩
  unfold boxCMI Spec.cmi
  simp only [zip_map_map]
  have hh := sum_freq_mul (List.range n) (fun w => (f w, g w, z w)) (fun p : List ℝ × List ℝ × List ℝ =>
    Real.log (freq ((List.range n).map z) p.2.2 * freq ((List.range n).map (fun w => (f w, g w, z w))) p /
      (freq ((List.range n).map (fun w => (f w, z w))) (p.1, p.2.2) *
        freq ((List.range n).map (fun w => (g w, z w))) (p.2.1, p.2.2))))
  refine Eq.trans ?_ hh.symm
  unfold mean
  rw [List.length_map]
  congr 2
  refine List.map_congr_left fun t ht => ?_
  have ht' := List.mem_range.1 ht
  have hn' : (0 : ℝ) < n := by exact_mod_cast (Nat.zero_lt_of_lt ht')
  have e1 : cnt ((List.range n).map z) (z t) = neighbours n h [(List.range n).map z] t := by
    rw [cnt_map, List.countP_eq_length_filter]
    unfold neighbours
    congr 1
    refine List.filter_congr fun s hs => ?_
    simp [-List.getD_eq_getElem?_getD, hiff z hz s (List.mem_range.1 hs) t ht']
  have e2 : ∀ (u : Nat → List ℝ), (∀ s < n, ∀ t < n, InBox h (u t) (u s) → u s = u t) →
      cnt ((List.range n).map (fun w => (u w, z w))) (u t, z t) =
        neighbours n h [(List.range n).map u, (List.range n).map z] t := by
    intro u hu
    rw [cnt_map, List.countP_eq_length_filter]
    unfold neighbours
    congr 1
    refine List.filter_congr fun s hs => ?_
    simp [-List.getD_eq_getElem?_getD, hiff z hz s (List.mem_range.1 hs) t ht', hiff u hu s (List.mem_range.1 hs) t ht']
  have e3 : cnt ((List.range n).map (fun w => (f w, g w, z w))) (f t, g t, z t) =
        neighbours n h [(List.range n).map f, (List.range n).map g, (List.range n).map z] t := by
    rw [cnt_map, List.countP_eq_length_filter]
    unfold neighbours
    congr 1
    refine List.filter_congr fun s hs => ?_
    simp [-List.getD_eq_getElem?_getD, hiff z hz s (List.mem_range.1 hs) t ht', hiff f hf s (List.mem_range.1 hs) t ht',
      hiff g hg s (List.mem_range.1 hs) t ht']
  unfold freq
  simp only [e1, e2 f hf, e2 g hg, e3, List.length_map, List.length_range]
  congr 1
  field_simp

/-- On integer data a box smaller than 2 separates different values, and the estimate equals the discrete one. -/
theorem C60_integer_data_agrees_with_discrete (x y z : List Int) (hxy : x.length = y.length) (hyz : y.length = z.length)
    (hne : x ≠ []) (hov : x.length < 2 ^ 32) (h : ℝ) (hh : 0 < h) (hh2 : h < 2) (w : Int) (b : Base) (hb : b.Valid) :
    kernelCMI [.one (x.map (fun v : Int => (v : ℝ))), .one (y.map (fun v : Int => (v : ℝ)))]
        (some (.one (z.map (fun v : Int => (v : ℝ))))) none false (boxCfg h w) b =
      discreteCMI [x, y] (some (.arr1 z)) none b := by
  classical
  rw [C16_cmi_is_textbook x y z hxy hyz hne hov b hb, C60_value _ _ _ x.length (List.length_pos_iff.2 hne) (by simp)
    (by simp [hxy]) (by simp [hxy, hyz]) h hh w b hb _ (.inr rfl)]
  congr 2
  have hs : ∀ u : List Int, u.length = x.length → smp (u.map (fun v : Int => (v : ℝ))) =
      (List.range x.length).map (fun t => [((u.getD t 0 : Int) : ℝ)]) := by
    intro u hu
    conv_lhs => rw [list_eq_range u 0 hu]
    simp [smp]
  have hsep : ∀ u : List Int, ∀ s < x.length, ∀ t < x.length,
      InBox h [((u.getD t 0 : Int) : ℝ)] [((u.getD s 0 : Int) : ℝ)] →
        ([((u.getD s 0 : Int) : ℝ)] : List ℝ) = [((u.getD t 0 : Int) : ℝ)] := by
    intro u s _ t _ H
    have := H 0 (by simp)
    simp only [List.getD_cons_zero] at this
    have h1 : |((u.getD t 0 - u.getD s 0 : Int) : ℝ)| < 1 := by push_cast; linarith
    rw [← Int.cast_abs] at h1
    have h2 : |u.getD t 0 - u.getD s 0| < 1 := by exact_mod_cast h1
    have h3 := Int.abs_lt_one_iff.1 h2
    have : u.getD s 0 = u.getD t 0 := by omega
    rw [this]
  rw [hs x rfl, hs y hxy.symm, hs z (by omega), boxCMI_separated hh.le _ _ _ (hsep x) (hsep y) (hsep z)]
  conv_rhs => rw [list_eq_range x 0 rfl, list_eq_range y 0 hxy.symm, list_eq_range z 0 (show z.length = x.length by omega)]
  rw [cmi_map, cmi_map]
  have hE : ∀ {α β : Type} [DecidableEq α] [DecidableEq β] (p : Nat → α) (q : Nat → β), (∀ u v, p u = p v ↔ q u = q v) →
      Spec.entropy ((List.range x.length).map p) = Spec.entropy ((List.range x.length).map q) :=
    fun p q H => entropy_map_congr _ p q (fun u _ v _ => H u v)
  congr 1
  · congr 1
    · congr 1
      · exact hE _ _ (fun u v => by simp)
      · exact hE _ _ (fun u v => by simp)
    · exact hE _ _ (fun u v => by simp)
  · exact hE _ _ (fun u v => by simp)

example : kernelCMI [.one ([1, 1, 2, 5].map (fun v : Int => (v : ℝ))), .one ([0, 1, 0, 1].map (fun v : Int => (v : ℝ)))]
    (some (.one ([3, 3, 4, 4].map (fun v : Int => (v : ℝ))))) none false (boxCfg 1) (.num 2) =
      discreteCMI [[(1 : Int), 1, 2, 5], [0, 1, 0, 1]] (some (.arr1 [3, 3, 4, 4])) none (.num 2) :=
  C60_integer_data_agrees_with_discrete [1, 1, 2, 5] [0, 1, 0, 1] [3, 3, 4, 4] rfl rfl (by simp) (by norm_num) 1 one_pos
    (by norm_num) 1 (.num 2) (by norm_num [Base.Valid])

/-! ### More than two variables, multi-dimensional variables: wrong values -/

/-- With `m` variables the code uses `p(z)` once instead of `m − 1` times: for `m` constant variables and a constant
condition, where every conditional information is zero, it returns `(m − 2) log h`. -/
theorem C60_constant_n_variables (m n : Nat) (hm : 2 ≤ m) (hn : 0 < n) (h : ℝ) (hh : 0 < h) (w : Int) (b : Base) (hb : b.Valid) :
    kernelCMI ((List.replicate m (List.replicate n (0 : ℝ))).map KVar.one) (some (.one (List.replicate n 0))) (some 0) false
      (boxCfg h w) b = .ok ((m - 2 : ℕ) * Real.log h / b.ln) := by
  unfold kernelCMI
  rw [C60_local_n_variables _ _ n hn (by simpa using hm) (by
    intro xs hx; rw [(List.mem_replicate.1 hx).2]; simp) (by simp) h hh w b hb _ (.inl rfl)]
  simp only [bind, Except.bind]
  have hn' : (0 : ℝ) < n := by exact_mod_cast hn
  have hall : ∀ (vs : List (List (List ℝ))) t, t < n → (∀ X ∈ vs, X = smp (List.replicate n 0)) → neighbours n h vs t = n := by
    intro vs t ht
    induction vs with
    | nil => intro _; exact neighbours_nil n h t
    | cons X vs ih =>
      intro H
      rw [H X (by simp)]
      have := neighbours_constant hh.le 0 [] vs ht
      simp only [List.nil_append] at this
      rw [this]
      exact ih fun Y hY => H Y (by simp [hY])
  have hc : (List.range n).map (fun t =>
        Real.log (((neighbours n h ((List.replicate m (List.replicate n (0 : ℝ))).map smp ++ [smp (List.replicate n 0)]) t : ℝ) /
          (n * h ^ ((List.replicate m (List.replicate n (0 : ℝ))).length + 1)) *
            ((neighbours n h [smp (List.replicate n 0)] t : ℝ) / (n * h))) /
          ((List.replicate m (List.replicate n (0 : ℝ))).map (fun X => (neighbours n h [smp X, smp (List.replicate n 0)] t : ℝ) /
            (n * h ^ 2))).prod) / b.ln) = List.replicate n ((m - 2 : ℕ) * Real.log h / b.ln) := by
    rw [List.eq_replicate_iff]
    refine ⟨by simp, ?_⟩
    intro v hv
    obtain ⟨t, ht, rfl⟩ := List.mem_map.1 hv
    have ht' := List.mem_range.1 ht
    rw [hall _ t ht' (by
      intro X hX
      rcases List.mem_append.1 hX with h | h
      · obtain ⟨Y, hY, rfl⟩ := List.mem_map.1 h
        rw [(List.mem_replicate.1 hY).2]
      · simpa using h), hall [smp (List.replicate n 0)] t ht' (by simp)]
    rw [List.map_replicate, List.prod_replicate, hall _ t ht' (by simp), List.length_replicate]
    congr 1
    rw [← Real.log_pow]
    congr 1
    have e : 2 * m = (m - 2) + (m + 2) := by omega
    have : (h ^ 2) ^ m = h ^ (m - 2) * h ^ (m + 2) := by rw [← pow_mul, ← pow_add, e]
    rw [div_pow, mul_pow]
    rw [this]
    field_simp
    ring
  rw [hc]
  rw [meanOrNan_ok (by simp; omega)]
  congr 1
  unfold mean
  rw [List.sum_replicate, List.length_replicate, nsmul_eq_mul]
  field_simp

example := C60_constant_n_variables 3 4 (by decide) (by decide) (3/2) (by norm_num) 1 (.num 2) (by norm_num [Base.Valid])

/-- Concretely: three constant variables, two samples, `h = 2` — the estimate is `log 2`, not 0. -/
theorem C60_three_variables_wrong :
    kernelCMI [.one [0, 0], .one [0, 0], .one [0, 0]] (some (.one [0, 0])) (some 0) false (boxCfg 2) .e = .ok (Real.log 2) ∧
      Real.log 2 ≠ 0 := by
  constructor
  · have := C60_constant_n_variables 3 2 (by norm_num) (by norm_num) 2 (by norm_num) 1 .e trivial
    simpa [List.replicate, Base.ln] using this
  · exact (Real.log_pos (by norm_num)).ne'

/-- For a variable with two columns the marginal space of the second variable is never evaluated; the second column of
the first variable takes its place. A constant two-column variable and any second series with distinct values then have
conditional information `−log 2` given a constant, instead of 0. -/
theorem C60_multidimensional_wrong :
    kernelCMI [.two ⟨2, [[0, 0], [0, 0]]⟩, .one [0, 5]] (some (.one [0, 0])) (some 0) false (boxCfg 1) .e =
      .ok (- Real.log 2) ∧ - Real.log 2 ≠ 0 := by
  refine ⟨?_, neg_ne_zero.2 (Real.log_pos (by norm_num)).ne'⟩
  have hj : stackArrs [⟨2, [[0, 0], [0, 0]]⟩, ⟨1, [[0], [5]]⟩, ⟨1, [[0], [0]]⟩] =
      .ok ⟨4, [[0, 0, 0, 0], [0, 0, 5, 0]]⟩ := by
    simp [stackArrs, concatRows, bind, Except.bind, pure, Except.pure]
  have k1 : kdeDensity ⟨4, [[0, 0, 0, 0], [0, 0, 5, 0]]⟩ none (boxCfg 1) = .ok [1 / 2, 1 / 2] := by
    simp [kdeDensity, boxCfg, PyArg.posNumber, ballCount, withinBox]
    norm_num [List.countP_cons]
  have k2 : kdeDensity ⟨2, [[0, 0], [0, 0]]⟩ none (boxCfg 1) = .ok [1, 1] := by
    simp [kdeDensity, boxCfg, PyArg.posNumber, ballCount, withinBox]
  have k3 : kdeDensity ⟨1, [[0], [0]]⟩ none (boxCfg 1) = .ok [1, 1] := by
    simp [kdeDensity, boxCfg, PyArg.posNumber, ballCount, withinBox]
  have hl : logBase .e ((1 / 2 : ℝ)) = .ok (- Real.log 2) := by
    rw [logBase_ok (b := .e) trivial (by norm_num)]
    simp [Base.ln]
  have s2 : ∀ i, i < 2 → (Arr.mk 4 [[0, 0, 0, 0], [0, 0, 5, 0]]).sel [i, 3] = ⟨2, [[0, 0], [0, 0]]⟩ := by
    intro i hi
    interval_cases i <;> simp [Arr.sel]
  have s3 : (Arr.mk 4 [[0, 0, 0, 0], [0, 0, 5, 0]]).sel [3] = ⟨1, [[0], [0]]⟩ := by simp [Arr.sel]
  have hc : kernelCMICalc (boxCfg 1) .e [⟨2, [[0, 0], [0, 0]]⟩, ⟨1, [[0], [5]]⟩] ⟨1, [[0], [0]]⟩ =
      .ok [- Real.log 2, - Real.log 2] := by
    unfold kernelCMICalc
    simp only [List.cons_append, List.nil_append, hj, bind, Except.bind, k1]
    rw [mapM_ok (g := fun _ => [(1 : ℝ), 1]) _ (by
      intro i hi
      rw [show (4 - 1 : ℕ) = 3 from rfl, s2 i (by simpa using hi), k2])]
    simp only [show (4 - 1 : ℕ) = 3 from rfl, s3, k3]
    have h2 : logBase .e ((2 : ℝ)⁻¹) = .ok (- Real.log 2) := by rw [← hl]; norm_num
    simp [List.range_succ, h2, List.mapM_cons, bind, Except.bind, pure, Except.pure]
  unfold kernelCMI kernelCMILocal
  simp only [kcmiInit, KVar.len, bind, Except.bind, pure, Except.pure, List.map_cons, List.map_nil, assure2d]
  simp only [List.length_cons, List.length_nil, true_or, not_true_eq_false, if_false, ne_eq, or_self, Bool.false_eq_true]
  simp only [List.map_cons, List.map_nil, assure2d, hc]
  simp [meanOrNan]

/-! ### Guards -/

/-- Missing condition, non-zero offset, too few variables, different lengths: the exceptions. -/
theorem C60_argument_errors (cfg : KdeCfg) (b : Base) (x y z : KVar) (r : List KVar) (o : Int) (nm : Bool) :
    kernelCMI (x :: y :: r) none (some 0) nm cfg b = .error .valueError ∧
    (o ≠ 0 → kernelCMI (x :: y :: r) (some z) (some o) nm cfg b = .error .valueError) ∧
    (x.len ≠ y.len → kernelCMI (x :: y :: r) (some z) (some 0) nm cfg b = .error .valueError) ∧
    (x.len ≠ z.len → kernelCMI (x :: y :: r) (some z) (some 0) nm cfg b = .error .valueError) ∧
    (x.len = y.len → x.len = z.len → x.is2d ∨ y.is2d ∨ z.is2d →
      kernelCMI (x :: y :: r) (some z) (some 0) true cfg b = .error .valueError) ∧
    kernelCMI [x] (some z) (some 0) nm cfg b = .error .indexError := by
  refine ⟨?_, ?_, ?_, ?_, ?_, ?_⟩
  · simp [kernelCMI, kernelCMILocal, kcmiInit, bind, Except.bind]
  · intro h; simp [kernelCMI, kernelCMILocal, kcmiInit, bind, Except.bind, h]
  · intro h; simp [kernelCMI, kernelCMILocal, kcmiInit, bind, Except.bind, h]
  · intro h; simp [kernelCMI, kernelCMILocal, kcmiInit, bind, Except.bind, h]
  · intro h1 h2 h3
    have : (x.is2d || y.is2d || z.is2d) = true := by rcases h3 with h | h | h <;> simp [h]
    simp only [kernelCMI, kernelCMILocal, kcmiInit, bind, Except.bind, ← h1, ← h2, this]
    simp
  · simp [kernelCMI, kernelCMILocal, kcmiInit, bind, Except.bind]

example := (C60_argument_errors (boxCfg 1) .e (.one [0, 1, 3]) (.one [2, 2, 0]) (.one [0, 0]) [] 2 false).2.2.2.1 (by simp [KVar.len])
example := (C60_argument_errors (boxCfg 1) .e (.one [0, 1, 3]) (.one [2, 2, 0]) (.two ⟨1, [[0], [0], [1]]⟩) [] 2 false).2.2.2.2.1 rfl rfl
  (by simp [KVar.is2d])

/-- Only the first two variables and the condition are checked for equal length; a third variable of another length
surfaces as the ValueError of stacking the columns. -/
theorem C60_third_length_not_checked (x y z u : List ℝ) (hxy : x.length = y.length) (hxz : x.length = z.length)
    (hu : u.length ≠ x.length) (cfg : KdeCfg) (b : Base) :
    kcmiInit [.one x, .one y, .one u] (some (.one z)) (some 0) false = .ok ([.one x, .one y, .one u], .one z) ∧
      kernelCMI [.one x, .one y, .one u] (some (.one z)) (some 0) false cfg b = .error .valueError := by
  have h1 : kcmiInit [.one x, .one y, .one u] (some (.one z)) (some 0) false = .ok ([.one x, .one y, .one u], .one z) := by
    simp [kcmiInit, KVar.len, ← hxy, ← hxz, pure, Except.pure]
  refine ⟨h1, ?_⟩
  unfold kernelCMI kernelCMILocal
  rw [h1]
  simp only [bind, Except.bind]
  have : kernelCMICalc cfg b ([KVar.one x, .one y, .one u].map assure2d) (assure2d (.one z)) = .error .valueError := by
    simp [kernelCMICalc, stackArrs, concatRows, assure2d, hu, bind, Except.bind]
  rw [this]

example := C60_third_length_not_checked [0, 1, 3] [2, 2, 0] [0, 0, 5] [4, 4] rfl rfl (by simp) (boxCfg 1) .e

/-- `normalize=True` is the estimate on the normalised series. -/
theorem C60_normalised (xs ys zs nx ny nz : List ℝ) (h1 : xs.length = ys.length) (h2 : xs.length = zs.length)
    (hx : normalize01 xs = .ok nx) (hy : normalize01 ys = .ok ny) (hz : normalize01 zs = .ok nz) (cfg : KdeCfg) (b : Base) :
    kernelCMI [.one xs, .one ys] (some (.one zs)) (some 0) true cfg b =
      kernelCMI [.one nx, .one ny] (some (.one nz)) (some 0) false cfg b := by
  have hl : ∀ us vs : List ℝ, normalize01 us = .ok vs → us.length = vs.length := by
    intro us vs h
    cases us with
    | nil => simp [normalize01] at h
    | cons u r =>
      unfold normalize01 at h
      simp only at h
      split_ifs at h
      rw [← Except.ok.inj h]; simp
  have : kcmiInit [.one xs, .one ys] (some (.one zs)) (some 0) true = kcmiInit [.one nx, .one ny] (some (.one nz)) (some 0) false := by
    have e1 := hl xs nx hx
    have e2 := hl ys ny hy
    have e3 := hl zs nz hz
    simp [kcmiInit, KVar.len, KVar.is2d, normVar, hx, hy, hz, ← h1, ← h2, ← e1, ← e2, ← e3, bind, Except.bind, pure, Except.pure,
      Except.map]
  simp only [kernelCMI, kernelCMILocal, this]

example := C60_normalised [0, 1, 4] [2, 2, 0] [0, 0, 5] [0, 1 / 4, 1] [1, 1, 0] [0, 0, 1] rfl rfl (by norm_num [normalize01, colMax, colMin])
  (by norm_num [normalize01, colMax, colMin]) (by norm_num [normalize01, colMax, colMin]) (boxCfg 1) .e

end Verif
