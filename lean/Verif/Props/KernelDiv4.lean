import Verif.Props.KernelDiv3

/-! # Property C69 : nearest-neighbour Kullback–Leibler divergence -/

namespace Verif

open Spec

open Classical in
theorem crossDists_self {v : KVar} {n : Nat} (H : v.Sample n) (p : PNorm) (hp : p.ok = true) {k t : Nat} (ht : t < n) {ε : ℝ}
    (h : IsKthDist n k t (dists p.order v.samples t) ε) : IsKthSmallest (crossDists p.order v v t) (k + 1) ε := by
  have hl : v.samples.length = n := by rw [← H.len]; exact KVar.len_rows v
  have e : crossDists p.order v v t = (List.range n).map (dists p.order v.samples t) := by
    unfold crossDists dists
    conv_lhs => rw [list_eq_range v.samples [] hl]
    rw [List.map_map]
    refine List.map_congr_left fun s hs => ?_
    simp only [Function.comp]
    rw [← list_eq_range v.samples [] hl]
  have h0 : dists p.order v.samples t t = 0 := distance_self (PNorm.orderOk hp) _
  obtain ⟨⟨s, hs, hst, hd⟩, hb, hw⟩ := h
  have hε : 0 ≤ ε := by rw [← hd]; exact distance_nonneg _ _ _
  rw [e]
  have hp' : (List.range n).Perm (t :: (List.range n).erase t) := List.perm_cons_erase (List.mem_range.2 ht)
  have key : ∀ P : Nat → Prop, ((List.range n).filter (fun s => decide (P s))).length =
      (if P t then 1 else 0) + ((List.range n).filter (fun s => decide (s ≠ t ∧ P s))).length := by
    intro P
    rw [← List.countP_eq_length_filter, ← List.countP_eq_length_filter, hp'.countP_eq, hp'.countP_eq, List.countP_cons, List.countP_cons]
    have : ((List.range n).erase t).countP (fun s => decide (P s)) = ((List.range n).erase t).countP (fun s => decide (s ≠ t ∧ P s)) :=
      List.countP_congr fun s hs => by
        have : s ≠ t := ((List.nodup_range (n := n)).mem_erase_iff.1 hs).1
        simp [this]
    rw [this]
    by_cases hP : P t <;> simp [hP, add_comm]
  refine ⟨List.mem_map.2 ⟨s, List.mem_range.2 hs, hd⟩, ?_, ?_⟩
  · rw [List.filter_map, List.length_map]
    have := key (fun s => dists p.order v.samples t s < ε)
    have h2 : ((List.range n).filter ((fun a => decide (a < ε)) ∘ dists p.order v.samples t)).length =
      ((List.range n).filter (fun s => decide (dists p.order v.samples t s < ε))).length := rfl
    rw [h2, this]
    unfold below at hb
    split_ifs <;> omega
  · rw [List.filter_map, List.length_map]
    have := key (fun s => dists p.order v.samples t s ≤ ε)
    have h2 : ((List.range n).filter ((fun a => decide (a ≤ ε)) ∘ dists p.order v.samples t)).length =
      ((List.range n).filter (fun s => decide (dists p.order v.samples t s ≤ ε))).length := rfl
    rw [h2, this, if_pos (by rw [h0]; exact hε)]
    unfold within at hw
    omega

/-- **C69** (finding) The cross-entropy of a sample with itself counts every point as its own neighbour, so it reaches only the
`(k−1)`-th other point: for distinct samples the divergence from itself is `d` times the mean log-ratio of the `(k−1)`-th and the
`k`-th neighbour distances. It is never positive, and 0 only if these distances agree at every point. -/
theorem C69_metric_kld_self (v : KVar) (n : Nat) (H : v.Sample n) (p : PNorm) (hp : p.ok = true) (k : Nat) (hk : 1 ≤ k) (hkn : k + 1 < n)
    (id : Int) (hid : id = 1 ∨ id = 2) (b : Base) (hb : b.Std) (ε ε' : Nat → ℝ)
    (hε : ∀ t < n, IsKthDist n k t (dists p.order v.samples t) (ε t))
    (hε' : ∀ t < n, IsKthDist n (k + 1) t (dists p.order v.samples t) (ε' t)) (hpos : ∀ t < n, 0 < ε t) :
    ∃ D, klKld (.arr v) (.arr v) ⟨.int (k + 1 : Nat), id, false, p⟩ none none none b = .ok D ∧
      D = v.dim * mean ((List.range n).map (fun t => Real.log (ε t / ε' t))) / b.ln ∧ D ≤ 0 ∧
      (D = 0 ↔ ∀ t < n, ε t = ε' t) := by
  have hle : ∀ t < n, ε t ≤ ε' t := by
    intro t ht
    by_contra hlt
    push Not at hlt
    have h1 := (hε t ht).2.1
    have h2 := (hε' t ht).2.2
    have : within n t (dists p.order v.samples t) (ε' t) ≤ below n t (dists p.order v.samples t) (ε t) := by
      unfold within below
      rw [← List.countP_eq_length_filter, ← List.countP_eq_length_filter]
      refine List.countP_mono_left fun s _ hs => ?_
      simp at hs ⊢
      exact ⟨hs.1, hs.2.trans_lt hlt⟩
    omega
  have hpos' : ∀ t < n, 0 < ε' t := fun t ht => (hpos t ht).trans_le (hle t ht)
  have hn0 : (0 : ℝ) < n := by have : 0 < n := by omega
                               exact_mod_cast this
  have hne : List.range n ≠ [] := by simp; omega
  have hD : klKld (.arr v) (.arr v) ⟨.int (k + 1 : Nat), id, false, p⟩ none none none b =
      .ok (v.dim * mean ((List.range n).map (fun t => Real.log (ε t / ε' t))) / b.ln) := by
    unfold klKld
    rw [kl_cross_val ⟨H, H, rfl⟩ p hp (by omega) (by omega) hid hb.valid (fun t ht => crossDists_self H p hp ht (hε t ht)),
      sum_filter_zero ε n hpos, kl_val v n H p hp (k + 1) (by omega) hkn id hid b hb.valid ε' hε']
    simp only [bind, Except.bind, pure, Except.pure]
    congr 1
    rw [← sub_div]
    congr 1
    have e1 : (List.range n).map (fun t => if ε' t = 0 then 0 else psi n - klHead id (k + 1) + Real.log (ballVolume v.dim p.order (ε' t))) =
        (List.range n).map (fun t => (psi n - klHead id (k + 1) + Real.log (unitBallVolume v.dim (1 / 2) p) + v.dim * Real.log (2 * ε t)) -
          v.dim * Real.log (ε t / ε' t)) := by
      refine List.map_congr_left fun t ht => ?_
      have ht' := List.mem_range.1 ht
      have h1 := hpos t ht'
      have h2 := hpos' t ht'
      rw [if_neg h2.ne', ballVolume_eq H.dim hp h2.le, ← C50_log_volume v.dim (ε' t) h2 p hp, Real.log_div h1.ne' h2.ne',
        Real.log_mul (by norm_num) h1.ne', Real.log_mul (by norm_num) h2.ne']
      ring
    rw [e1, mean_sub]
    have e2 : mean ((List.range n).map (fun t => psi n - klHead id (k + 1) + Real.log (unitBallVolume v.dim (1 / 2) p) + v.dim * Real.log (2 * ε t))) =
        - klHead id (k + 1) + psi n + Real.log (unitBallVolume v.dim (1 / 2) p) +
          v.dim * ((List.range n).map (fun t => Real.log (2 * ε t))).sum / n := by
      unfold mean
      rw [List.sum_map_add, List.sum_map_mul_left]
      simp only [List.length_map, List.length_range, List.map_const', List.sum_replicate, nsmul_eq_mul]
      field_simp
      ring
    have e3 : mean ((List.range n).map (fun t => v.dim * Real.log (ε t / ε' t))) =
        v.dim * mean ((List.range n).map (fun t => Real.log (ε t / ε' t))) := by
      unfold mean
      rw [List.sum_map_mul_left, List.length_map, List.length_map]
      ring
    rw [e2, e3]
    ring
  refine ⟨_, hD, rfl, ?_⟩
  have hd : (0 : ℝ) < v.dim := by exact_mod_cast H.dim
  have hb0 := hb.ln_pos
  have hlog : ∀ t ∈ List.range n, 0 ≤ - Real.log (ε t / ε' t) := by
    intro t ht
    have ht' := List.mem_range.1 ht
    have := Real.log_nonpos (div_nonneg (hpos t ht').le (hpos' t ht').le) ((div_le_one (hpos' t ht')).2 (hle t ht'))
    linarith
  have hm := mean_eq_bound_iff hne (f := fun t => - Real.log (ε t / ε' t)) (lo := 0) hlog
  rw [mean_neg] at hm
  have hm0 : mean ((List.range n).map (fun t => Real.log (ε t / ε' t))) ≤ 0 := by
    have : 0 ≤ ((List.range n).map (fun t => - Real.log (ε t / ε' t))).sum := List.sum_nonneg (by
      intro x hx
      obtain ⟨t, ht, rfl⟩ := List.mem_map.1 hx
      exact hlog t ht)
    have h2 : 0 ≤ mean ((List.range n).map (fun t => - Real.log (ε t / ε' t))) := by
      unfold mean; positivity
    rw [mean_neg] at h2
    linarith
  constructor
  · exact div_nonpos_of_nonpos_of_nonneg (mul_nonpos_of_nonneg_of_nonpos hd.le hm0) hb0.le
  · rw [div_eq_zero_iff, or_iff_left hb0.ne', mul_eq_zero, or_iff_right hd.ne', ← neg_eq_zero, hm]
    constructor
    · intro h t ht
      have h1 := h t (List.mem_range.2 ht)
      have h2 := Real.eq_one_of_pos_of_log_eq_zero (div_pos (hpos t ht) (hpos' t ht)) (by linarith)
      exact (div_eq_one_iff_eq (hpos' t ht).ne').1 h2
    · intro h t ht
      have ht' := List.mem_range.1 ht
      rw [h t ht', div_self (hpos' t ht').ne', Real.log_one, neg_zero]

/-- non-vacuity of `C69_metric_kld_self`: for the sample 0, 1, 3 and `k = 2` (maximum norm) the divergence from itself is
negative -/
example (b : Base) (hb : b.Std) : ∃ D, klKld (.arr (.one [0, 1, 3])) (.arr (.one [0, 1, 3])) ⟨.int 2, 1, false, .inf⟩ none none none b = .ok D ∧ D < 0 := by
  have H : (KVar.one [0, 1, 3]).Sample 3 := ⟨rfl, KVar.wf_one _, by decide⟩
  have hd : ∀ x y : ℝ, distance none [x] [y] = |x - y| := fun x y => by simp [distance]
  have hs : (KVar.one [0, 1, 3]).samples = [[0], [1], [3]] := by simp [KVar.samples, assure2d]
  have hr : List.range 3 = [0, 1, 2] := rfl
  obtain ⟨D, h1, _, h3, h4⟩ := C69_metric_kld_self (.one [0, 1, 3]) 3 H .inf rfl 1 le_rfl (by norm_num) 1 (.inl rfl) b hb
    (fun t => [1, 1, 2].getD t 0) (fun t => [3, 2, 3].getD t 0)
    (by
      intro t ht
      rw [hs]
      simp only [PNorm.order]
      interval_cases t
      · refine ⟨⟨1, by norm_num, by norm_num, by simp [dists, hd]⟩, ?_, ?_⟩ <;> simp [below, within, hr, List.filter_cons, dists, hd]
      · refine ⟨⟨0, by norm_num, by norm_num, by simp [dists, hd]⟩, ?_, ?_⟩ <;> simp [below, within, hr, List.filter_cons, dists, hd] <;> norm_num
      · refine ⟨⟨1, by norm_num, by norm_num, by simp [dists, hd]; norm_num⟩, ?_, ?_⟩ <;> simp [below, within, hr, List.filter_cons, dists, hd] <;> norm_num)
    (by
      intro t ht
      rw [hs]
      simp only [PNorm.order]
      interval_cases t
      · refine ⟨⟨2, by norm_num, by norm_num, by simp [dists, hd]⟩, ?_, ?_⟩ <;> simp [below, within, hr, List.filter_cons, dists, hd] <;> norm_num
      · refine ⟨⟨2, by norm_num, by norm_num, by simp [dists, hd]; norm_num⟩, ?_, ?_⟩ <;> simp [below, within, hr, List.filter_cons, dists, hd] <;> norm_num
      · refine ⟨⟨0, by norm_num, by norm_num, by simp [dists, hd]⟩, ?_, ?_⟩ <;> simp [below, within, hr, List.filter_cons, dists, hd] <;> norm_num)
    (by intro t ht; interval_cases t <;> simp)
  refine ⟨D, by exact_mod_cast h1, lt_of_le_of_ne h3 fun h0 => ?_⟩
  have := h4.1 h0 0 (by norm_num)
  simp at this

/-- **C69** (finding) Rescaling (and shifting) both samples: the divergence of densities does not change, the estimate changes by
`(n/m − 1) d log|c|`, so it is scale-free only for samples of equal size. -/
theorem C69_metric_kld_scaling (v w : KVar) (n m : Nat) (H : CrossArgs v w n m) (c : ℝ) (hc : c ≠ 0) (o : Nat → ℝ) (p : PNorm)
    (hp : p.ok = true) (k : Nat) (hk : 1 < k) (hkn : k < n) (hkm : k ≤ m) (id : Int) (hid : id = 1 ∨ id = 2) (b : Base) (hb : b.Valid)
    (hpos : ∀ t < n, ∀ ε, IsKthSmallest (crossDists p.order v w t) k ε → 0 < ε)
    (hpos' : ∀ t < n, ∀ ε, IsKthDist n k t (dists p.order v.samples t) ε → 0 < ε) :
    ∃ D, klKld (.arr v) (.arr w) ⟨.int k, id, false, p⟩ none none none b = .ok D ∧
      klKld (.arr (v.affine c o)) (.arr (w.affine c o)) ⟨.int k, id, false, p⟩ none none none b =
        .ok (D + (n / m - 1 : ℝ) * v.dim * Real.log |c| / b.ln) := by
  obtain ⟨x, h1, h2⟩ := C52_cross_affine v w n m H c hc o p hp k hk hkm id hid b hb hpos
  obtain ⟨y, h3, h4⟩ := C52_affine v n H.p c hc o p hp k (by omega) hkn id hid b hb hpos'
  refine ⟨x - y, ?_, ?_⟩
  · unfold klKld
    rw [h1, h3]; rfl
  · unfold klKld
    rw [h2, h4]
    simp only [bind, Except.bind, pure, Except.pure]
    congr 1
    rw [H.dim]
    ring

example := C69_metric_kld_scaling (.one [0, 1, 6]) (.one [3, 7]) 3 2 ⟨⟨rfl, KVar.wf_one _, by decide⟩, ⟨rfl, KVar.wf_one _, by decide⟩, rfl⟩ (-2) (by norm_num) (fun _ => 5) .inf rfl 2 (by decide) (by decide) (by decide) 1 (.inl rfl) .e trivial
  (fun t ht ε h => by
    have h1 := h.1
    interval_cases t <;> norm_num [crossDists, distance, KVar.samples, assure2d, PNorm.order] at h1 <;>
      rcases h1 with rfl | rfl <;> norm_num)
  (fun t ht ε h => by
    obtain ⟨⟨s, hs, hne, rfl⟩, _⟩ := h
    interval_cases t <;> interval_cases s <;>
      first | exact absurd rfl hne | exact lt_of_lt_of_eq (by norm_num) (maxline_distance _ _).symm)

/-- **C69** `k = 1` is an IndexError, samples of different dimension are a ValueError. -/
theorem C69_metric_kld_errors (v w : KVar) (n m : Nat) (p : PNorm) (hp : p.ok = true) (id : Int) (hid : id = 1 ∨ id = 2)
    (e₁ e₂ e₃ : Option (Nat → Nat → ℝ)) (b : Base) (cfg : KlCfg) :
    (CrossArgs v w n m → klKld (.arr v) (.arr w) ⟨.int 1, id, false, p⟩ e₁ e₂ e₃ b = .error .indexError) ∧
    (v.dim ≠ w.dim → klKld (.arr v) (.arr w) cfg e₁ e₂ e₃ b = .error .valueError) := by
  refine ⟨fun H => ?_, fun h => ?_⟩
  · unfold klKld
    rw [C52_cross_k_one v w n m H p hp id hid e₁ e₂ b]; rfl
  · unfold klKld
    rw [C52_cross_dimensions v w h cfg e₁ e₂ b]; rfl

example := (C69_metric_kld_errors (.one [0, 1]) (.one [3, 7, 4]) 2 3 .inf rfl 1 (.inl rfl) none none none .e ⟨.int 2, 1, false, .inf⟩).1
  ⟨⟨rfl, KVar.wf_one _, by decide⟩, ⟨rfl, KVar.wf_one _, by decide⟩, rfl⟩

end Verif
