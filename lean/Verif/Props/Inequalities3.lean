import Verif.Props.Inequalities2

/-!
# C76 (continued): pooling and repeating samples
-/

namespace Verif

open Spec

section Pool

variable {α β : Type} [DecidableEq α] [DecidableEq β]

theorem div_as_sum (xs : List α) (q : α → ℝ) (hq : ∀ a ∈ xs, 0 < q a) :
    ∑ a ∈ xs.toFinset, freq xs a * Real.log (freq xs a / q a) = (xs.map (fun a => - Real.log (q a))).sum / xs.length - entropy xs := by
  have e := sum_freq_mul xs id (fun a => Real.log (freq xs a / q a))
  rw [List.map_id] at e
  rw [e, entropy_eq_mean, mean, List.length_map, ← sub_div, ← sum_map_sub']
  congr 2
  refine List.map_congr_left fun a ha => ?_
  simp only [id]
  rw [Real.log_div (freq_pos ha).ne' (hq a ha).ne']
  ring

/-- pooled entropy as weighted entropies plus weighted divergences from the pool -/
theorem entropy_append (xs ys : List α) (hx : xs ≠ []) (hy : ys ≠ []) :
    (xs.length + ys.length : ℝ) * entropy (xs ++ ys) =
      xs.length * entropy xs + ys.length * entropy ys + xs.length * kl xs (xs ++ ys) + ys.length * kl ys (xs ++ ys) := by
  have hn : (0:ℝ) < xs.length := by exact_mod_cast List.length_pos_iff.2 hx
  have hm : (0:ℝ) < ys.length := by exact_mod_cast List.length_pos_iff.2 hy
  rw [kl, kl, div_as_sum xs _ (fun a ha => freq_pos (List.mem_append_left _ ha)),
    div_as_sum ys _ (fun a ha => freq_pos (List.mem_append_right _ ha)), entropy_eq_mean (xs ++ ys), mean]
  simp only [List.map_append, List.sum_append, List.length_append, List.length_map, Nat.cast_add]
  field_simp
  ring

/-- entropy of the pool with its origin recorded -/
theorem entropy_tagged (xs ys : List α) (hx : xs ≠ []) (hy : ys ≠ []) :
    (xs.length + ys.length : ℝ) * entropy (xs.map (fun a => (a, true)) ++ ys.map (fun a => (a, false))) =
      xs.length * entropy xs + ys.length * entropy ys
        - xs.length * Real.log (xs.length / (xs.length + ys.length))
        - ys.length * Real.log (ys.length / (xs.length + ys.length)) := by
  have hn : (0:ℝ) < xs.length := by exact_mod_cast List.length_pos_iff.2 hx
  have hm : (0:ℝ) < ys.length := by exact_mod_cast List.length_pos_iff.2 hy
  have c1 : ∀ a, cnt (xs.map (fun a => (a, true)) ++ ys.map (fun a => (a, false))) (a, true) = cnt xs a := fun a => by
    simp [cnt, List.countP_append, List.countP_map, Function.comp_def]
  have c2 : ∀ a, cnt (xs.map (fun a => (a, true)) ++ ys.map (fun a => (a, false))) (a, false) = cnt ys a := fun a => by
    simp [cnt, List.countP_append, List.countP_map, Function.comp_def]
  rw [entropy_eq_mean (xs.map _ ++ ys.map _), mean]
  simp only [List.map_append, List.sum_append, List.length_append, List.length_map, Nat.cast_add, List.map_map]
  rw [mul_div_cancel₀ _ (by positivity)]
  have s1 : (xs.map ((fun a => - Real.log (freq (xs.map (fun a => (a, true)) ++ ys.map (fun a => (a, false))) a)) ∘
      fun a => (a, true))).sum = xs.length * entropy xs - xs.length * Real.log (xs.length / (xs.length + ys.length)) := by
    rw [entropy_eq_mean, mean, List.length_map, mul_div_cancel₀ _ hn.ne']
    have : (xs.map (fun _ => Real.log (xs.length / (xs.length + ys.length) : ℝ))).sum =
        xs.length * Real.log (xs.length / (xs.length + ys.length)) := by simp
    rw [← this, ← sum_map_sub']
    congr 1
    refine List.map_congr_left fun a ha => ?_
    have hc : (0:ℝ) < cnt xs a := by exact_mod_cast cnt_pos_iff.2 ha
    simp only [Function.comp, freq, c1, List.length_append, List.length_map, Nat.cast_add]
    rw [Real.log_div hc.ne' (by positivity), Real.log_div hc.ne' hn.ne', Real.log_div hn.ne' (by positivity)]
    ring
  have s2 : (ys.map ((fun a => - Real.log (freq (xs.map (fun a => (a, true)) ++ ys.map (fun a => (a, false))) a)) ∘
      fun a => (a, false))).sum = ys.length * entropy ys - ys.length * Real.log (ys.length / (xs.length + ys.length)) := by
    rw [entropy_eq_mean, mean, List.length_map, mul_div_cancel₀ _ hm.ne']
    have : (ys.map (fun _ => Real.log (ys.length / (xs.length + ys.length) : ℝ))).sum =
        ys.length * Real.log (ys.length / (xs.length + ys.length)) := by simp
    rw [← this, ← sum_map_sub']
    congr 1
    refine List.map_congr_left fun a ha => ?_
    have hc : (0:ℝ) < cnt ys a := by exact_mod_cast cnt_pos_iff.2 ha
    simp only [Function.comp, freq, c2, List.length_append, List.length_map, Nat.cast_add]
    rw [Real.log_div hc.ne' (by positivity), Real.log_div hc.ne' hm.ne', Real.log_div hm.ne' (by positivity)]
    ring
  rw [s1, s2]; ring

theorem cnt_repeat (k : Nat) (xs : List α) (a : α) : cnt ((List.replicate k xs).flatten) a = k * cnt xs a := by
  rw [cnt_eq_count, cnt_eq_count, List.count_flatten]
  simp

theorem freq_repeat {k : Nat} (hk : 0 < k) (xs : List α) (a : α) : freq ((List.replicate k xs).flatten) a = freq xs a := by
  have : (0:ℝ) < k := by exact_mod_cast hk
  unfold freq
  rw [cnt_repeat]
  simp only [List.length_flatten, List.map_replicate, List.sum_replicate, smul_eq_mul, Nat.cast_mul]
  rw [mul_div_mul_left _ _ this.ne']

theorem toFinset_repeat {k : Nat} (hk : 0 < k) (xs : List α) : ((List.replicate k xs).flatten).toFinset = xs.toFinset := by
  ext a
  rw [List.mem_toFinset, List.mem_toFinset, List.mem_flatten]
  exact ⟨fun ⟨l, hl, ha⟩ => (List.eq_of_mem_replicate hl) ▸ ha, fun ha => ⟨xs, by simp [hk.ne'], ha⟩⟩

theorem entropy_repeat {k : Nat} (hk : 0 < k) (xs : List α) : entropy ((List.replicate k xs).flatten) = entropy xs := by
  unfold entropy
  rw [toFinset_repeat hk]
  simp only [freq_repeat hk]

omit [DecidableEq α] [DecidableEq β] in
theorem zip_repeat (k : Nat) (xs : List α) (ys : List β) (h : xs.length = ys.length) :
    ((List.replicate k xs).flatten).zip ((List.replicate k ys).flatten) = (List.replicate k (xs.zip ys)).flatten := by
  induction k with
  | zero => simp
  | succ k ih => simp only [List.replicate_succ, List.flatten_cons]; rw [List.zip_append h, ih]

omit [DecidableEq α] in
theorem length_repeat (k : Nat) (xs : List α) : ((List.replicate k xs).flatten).length = k * xs.length := by simp

end Pool

/-- **C76** Pooling two samples: the entropy of the concatenation is at least the weighted mean of the two entropies, with equality
exactly when both samples have the same distribution, and exceeds it by at most the entropy of the two weights, with equality exactly
when the samples share no value. -/
theorem C76_pooled_samples (xs ys : List Int) (hx : xs ≠ []) (hy : ys ≠ []) (b : Base) (hb : b.Std) :
    ∃ HX HY HP, discreteEntropy [.arr1 xs] b = .ok HX ∧ discreteEntropy [.arr1 ys] b = .ok HY ∧
      discreteEntropy [.arr1 (xs ++ ys)] b = .ok HP ∧
      (let p : ℝ := xs.length / (xs.length + ys.length)
       let q : ℝ := ys.length / (xs.length + ys.length)
       p * HX + q * HY ≤ HP ∧ (HP = p * HX + q * HY ↔ SameDist xs ys) ∧
       HP ≤ p * HX + q * HY - (p * Real.log p + q * Real.log q) / b.ln ∧
       (HP = p * HX + q * HY - (p * Real.log p + q * Real.log q) / b.ln ↔ ∀ a ∈ xs, a ∉ ys)) := by
  have hn : (0:ℝ) < xs.length := by exact_mod_cast List.length_pos_iff.2 hx
  have hm : (0:ℝ) < ys.length := by exact_mod_cast List.length_pos_iff.2 hy
  have hN : (0:ℝ) < xs.length + ys.length := by positivity
  have hL := hb.ln_pos
  refine ⟨_, _, _, discreteEntropy_arr1 hx hb.valid, discreteEntropy_arr1 hy hb.valid,
    discreteEntropy_arr1 (by simp [hx]) hb.valid, ?_⟩
  have e1 := entropy_append xs ys hx hy
  have e2 := entropy_tagged xs ys hx hy
  have ix : ∀ a ∈ xs, a ∈ xs ++ ys := fun a ha => List.mem_append_left _ ha
  have iy : ∀ a ∈ ys, a ∈ xs ++ ys := fun a ha => List.mem_append_right _ ha
  have n1 := kl_nonneg ix hx
  have n2 := kl_nonneg iy hy
  have z1 := kl_eq_zero_iff ix hx
  have z2 := kl_eq_zero_iff iy hy
  set T := xs.map (fun a => (a, true)) ++ ys.map (fun a => (a, false)) with hT
  have hfst : T.map Prod.fst = xs ++ ys := by
    simp [hT, List.map_append, List.map_map, Function.comp_def]
  have m1 := entropy_map_le T id Prod.fst (fun u _ v _ h => by simp only [id] at h; rw [h])
  have m2 := entropy_map_eq_iff T id Prod.fst (fun u _ v _ h => by simp only [id] at h; rw [h])
  rw [List.map_id, hfst] at m1 m2
  have hdis : (∀ u ∈ T, ∀ v ∈ T, u.1 = v.1 → id u = id v) ↔ ∀ a ∈ xs, a ∉ ys := by
    constructor
    · intro h a ha ha'
      have := h (a, true) (List.mem_append_left _ (List.mem_map_of_mem (f := fun a => (a, true)) ha)) (a, false)
        (List.mem_append_right _ (List.mem_map_of_mem (f := fun a => (a, false)) ha')) rfl
      simp at this
    · intro h u hu v hv huv
      simp only [hT, List.mem_append, List.mem_map] at hu hv
      rcases hu with ⟨a, ha, rfl⟩ | ⟨a, ha, rfl⟩ <;> rcases hv with ⟨c, hc, rfl⟩ | ⟨c, hc, rfl⟩ <;>
        simp only at huv <;> subst huv
      · rfl
      · exact absurd hc (h a ha)
      · exact absurd ha (h a hc)
      · rfl
  have hsame : (kl xs (xs ++ ys) = 0 ∧ kl ys (xs ++ ys) = 0) ↔ SameDist xs ys := by
    rw [z1, z2]
    constructor
    · rintro ⟨h1, h2⟩ a; rw [h1 a, h2 a]
    · intro h
      have hfr : ∀ a, freq (xs ++ ys) a = freq xs a := fun a => by
        have h' := h a
        unfold freq at h' ⊢
        rw [cnt_eq_count, List.count_append, ← cnt_eq_count, ← cnt_eq_count, List.length_append, Nat.cast_add, Nat.cast_add]
        rw [div_eq_div_iff hn.ne' hm.ne'] at h'
        rw [div_eq_div_iff hN.ne' hn.ne']
        linarith
      exact ⟨fun a => (hfr a).symm, fun a => by rw [hfr a, h a]⟩
  have r1 : entropy (xs ++ ys) / b.ln - (xs.length / (xs.length + ys.length) * (entropy xs / b.ln) +
      ys.length / (xs.length + ys.length) * (entropy ys / b.ln)) =
      (xs.length * kl xs (xs ++ ys) + ys.length * kl ys (xs ++ ys)) / ((xs.length + ys.length) * b.ln) := by
    have : entropy (xs ++ ys) = (xs.length * entropy xs + ys.length * entropy ys + xs.length * kl xs (xs ++ ys) +
        ys.length * kl ys (xs ++ ys)) / (xs.length + ys.length : ℝ) := by
      rw [← e1, mul_div_cancel_left₀ _ hN.ne']
    rw [this]
    field_simp
    ring
  have r2 : (xs.length / (xs.length + ys.length) * (entropy xs / b.ln) +
      ys.length / (xs.length + ys.length) * (entropy ys / b.ln)) -
      (xs.length / (xs.length + ys.length) * Real.log (xs.length / (xs.length + ys.length)) +
        ys.length / (xs.length + ys.length) * Real.log (ys.length / (xs.length + ys.length))) / b.ln = entropy T / b.ln := by
    have : entropy T = (xs.length * entropy xs + ys.length * entropy ys
        - xs.length * Real.log (xs.length / (xs.length + ys.length))
        - ys.length * Real.log (ys.length / (xs.length + ys.length))) / (xs.length + ys.length : ℝ) := by
      rw [← e2, mul_div_cancel_left₀ _ hN.ne']
    rw [this]
    field_simp
    ring
  have hpos : 0 ≤ (xs.length * kl xs (xs ++ ys) + ys.length * kl ys (xs ++ ys)) / ((xs.length + ys.length) * b.ln) :=
    div_nonneg (by positivity) (by positivity)
  refine ⟨by linarith, ?_, ?_, ?_⟩
  · rw [← sub_eq_zero, r1, div_eq_zero_iff, or_iff_left (by positivity), ← hsame]
    constructor
    · intro h
      have a1 : 0 ≤ xs.length * kl xs (xs ++ ys) := by positivity
      have a2 : 0 ≤ ys.length * kl ys (xs ++ ys) := by positivity
      have b1 : (xs.length : ℝ) * kl xs (xs ++ ys) = 0 := by linarith
      have b2 : (ys.length : ℝ) * kl ys (xs ++ ys) = 0 := by linarith
      exact ⟨(mul_eq_zero.1 b1).resolve_left hn.ne', (mul_eq_zero.1 b2).resolve_left hm.ne'⟩
    · rintro ⟨h1, h2⟩; rw [h1, h2]; ring
  · rw [r2]; exact div_le_div_of_nonneg_right m1 hL.le
  · rw [r2, div_left_inj' hL.ne', m2, hdis]

example : ([0, 0, 1] : List Int) ≠ [] ∧ ([2, 1] : List Int) ≠ [] := by simp

/-- **C76** Samples of equal size: the Jensen–Shannon divergence is the entropy of the concatenation minus the mean of the entropies. -/
theorem C76_jsd_of_equal_sizes (xss : List (List Int)) (n : Nat) (hn : 0 < n) (hne : xss ≠ []) (hl : ∀ xs ∈ xss, xs.length = n)
    (b : Base) (hb : b.Valid) :
    ∃ v HP Hs, jsdDiscrete .discrete b (xss.map .arr1) = .ok v ∧ discreteEntropy [.arr1 xss.flatten] b = .ok HP ∧
      xss.mapM (fun xs => discreteEntropy [.arr1 xs] b) = .ok Hs ∧ v = HP - Spec.mean Hs := by
  have hx : ∀ xs ∈ xss, xs ≠ [] := fun xs hxs => List.length_pos_iff.1 (by rw [hl xs hxs]; exact hn)
  have hlen : xss.flatten.length = xss.length * n := by
    rw [List.length_flatten, List.map_congr_left hl, List.map_const', List.sum_replicate, smul_eq_mul]
  have hk : 0 < xss.length := List.length_pos_iff.2 hne
  have hfl : xss.flatten ≠ [] := List.length_pos_iff.1 (by rw [hlen]; positivity)
  have hnR : (0:ℝ) < n := by exact_mod_cast hn
  have hkR : (0:ℝ) < xss.length := by exact_mod_cast hk
  have hmix : ∀ a, mixture xss a = freq xss.flatten a := by
    intro a
    have : (xss.map (fun xs => freq xs a)).sum = cnt xss.flatten a / n := by
      rw [cnt_eq_count, List.count_flatten, Nat.cast_list_sum, List.map_map, ← sum_map_div']
      congr 1
      refine List.map_congr_left fun xs hxs => ?_
      simp only [freq, hl xs hxs, cnt_eq_count, Function.comp]
    rw [mixture, this, freq, hlen, Nat.cast_mul, div_div, mul_comm (n : ℝ)]
  refine ⟨_, _, xss.map (fun xs => entropy xs / b.ln), C37_jsd_value xss hne hx b hb, discreteEntropy_arr1 hfl hb,
    mapM_ok (f := fun xs => discreteEntropy [.arr1 xs] b) (g := fun xs => entropy xs / b.ln)
      xss (fun xs hxs => discreteEntropy_arr1 (hx xs hxs) hb), ?_⟩
  have key : jsd xss = entropy xss.flatten - (xss.map (fun xs => entropy xs)).sum / xss.length := by
    rw [jsd, ← sub_eq_zero]
    have e : (xss.map (fun xs => ∑ a ∈ xs.toFinset, freq xs a * Real.log (freq xs a / mixture xss a))) =
        xss.map (fun xs => (xs.map (fun a => - Real.log (freq xss.flatten a))).sum / n - entropy xs) := by
      refine List.map_congr_left fun xs hxs => ?_
      rw [div_as_sum xs _ (fun a ha => mixture_pos hxs ha), hl xs hxs]
      simp only [hmix]
    rw [e, sum_map_sub', sum_map_div', entropy_eq_mean xss.flatten, mean, List.length_map, hlen, List.map_flatten,
      List.sum_flatten, List.map_map, Nat.cast_mul]
    have : (List.sum ∘ List.map fun a => - Real.log (freq xss.flatten a)) =
        (fun xs : List Int => (xs.map (fun a => - Real.log (freq xss.flatten a))).sum) := rfl
    rw [this]
    field_simp
    ring
  rw [key, mean, List.length_map, sum_map_div']
  ring

example := C76_jsd_of_equal_sizes [[0, 1, 1], [2, 1, 0]] 3 (by decide) (by decide) (by decide) (.num 2) (by norm_num [Base.Valid])

/-- **C76** Repeating the whole sample `k` times changes neither the plug-in entropy nor the mutual information, and divides the
Miller–Madow correction of the entropy by `k`. -/
theorem C76_repeated_sample (xs ys : List Int) (h : xs.length = ys.length) (hne : xs ≠ []) (k : Nat) (hk : 0 < k)
    (hov : k * xs.length < 2 ^ 32) (b : Base) (hb : b.Std) :
    discreteEntropy [.arr1 ((List.replicate k xs).flatten)] b = discreteEntropy [.arr1 xs] b ∧
    discreteMI (.all1D [(List.replicate k xs).flatten, (List.replicate k ys).flatten]) (some 0) b =
      discreteMI (.all1D [xs, ys]) (some 0) b ∧
    (∃ H M Mk, discreteEntropy [.arr1 xs] b = .ok H ∧ (millerMadowH b).entropy (.arr1 xs) = .ok M ∧
      (millerMadowH b).entropy (.arr1 ((List.replicate k xs).flatten)) = .ok Mk ∧ Mk - H = (M - H) / k) := by
  have hn : 0 < xs.length := List.length_pos_iff.2 hne
  have hkR : (0:ℝ) < k := by exact_mod_cast hk
  have hnR : (0:ℝ) < xs.length := by exact_mod_cast hn
  have hne' : (List.replicate k xs).flatten ≠ [] := List.length_pos_iff.1 (by rw [length_repeat]; positivity)
  have hov' : xs.length < 2 ^ 32 := lt_of_le_of_lt (Nat.le_mul_of_pos_left _ hk) hov
  refine ⟨?_, ?_, _, _, _, discreteEntropy_arr1 hne hb.valid, C19_mm_entropy xs hne b hb.valid,
    C19_mm_entropy _ hne' b hb.valid, ?_⟩
  · rw [discreteEntropy_arr1 hne hb.valid, discreteEntropy_arr1 hne' hb.valid, entropy_repeat hk]
  · have hl : ((List.replicate k xs).flatten).length = ((List.replicate k ys).flatten).length := by
      rw [length_repeat, length_repeat, h]
    rw [discreteMI_std h hne hov' hb, discreteMI_std hl hne' (by rw [length_repeat]; exact hov) hb, mi_eq_entropies _ _ hl,
      mi_eq_entropies _ _ h, zip_repeat k xs ys h, entropy_repeat hk, entropy_repeat hk, entropy_repeat hk]
  · rw [entropy_repeat hk, toFinset_repeat hk, length_repeat, Nat.cast_mul]
    have := hb.ln_pos
    field_simp
    ring

example := C76_repeated_sample [5, 7, 5] [0, 0, 1] rfl (by decide) 4 (by decide) (by decide) (.num 2) (by norm_num [Base.Std])

end Verif
