import Verif.Lemmas.Close

/-! # Helper lemmas: distance from the plug-in entropy (continued) -/

namespace Verif

open Spec

section
variable {α : Type} [DecidableEq α]

theorem occurring_le_card (xs : List α) (m : Nat) : occurring xs m ≤ xs.toFinset.card := Finset.card_filter_le _ _

open Classical in
theorem cwj_close (xs : List α) (h : xs ≠ []) :
    0 ≤ chaoWangJost xs - zhang xs ∧
    chaoWangJost xs - zhang xs ≤
      (if 0 < occurring xs 2 then (occurring xs 1 : ℝ) ^ 2 / (2 * occurring xs 2)
        else (occurring xs 1 : ℝ) * (occurring xs 1 - 1) / 2) / xs.length := by
  have hN : (1:ℝ) ≤ xs.length := by exact_mod_cast List.length_pos_iff.2 h
  have hN0 : (0:ℝ) < xs.length := by linarith
  have e : chaoWangJost xs - zhang xs = if 0 < occurring xs 1 ∧ cwjParam xs ≠ 1 then cwjCorr xs else 0 := by
    rw [zhang_harmonic_spec]; unfold chaoWangJost; ring
  rw [e]
  have hA0 : 0 < cwjParam xs := by
    unfold cwjParam
    simp only []
    split_ifs with h2 h1
    · have : (0:ℝ) < occurring xs 2 := by exact_mod_cast h2
      have : (0:ℝ) ≤ (xs.length - 1) * occurring xs 1 := mul_nonneg (by linarith) (by positivity)
      positivity
    · have : (1:ℝ) ≤ occurring xs 1 := by exact_mod_cast h1
      have : (0:ℝ) ≤ (xs.length - 1) * (occurring xs 1 - 1) := mul_nonneg (by linarith) (by linarith)
      positivity
    · norm_num
  have hA1 : cwjParam xs ≤ 1 := by
    unfold cwjParam
    simp only []
    split_ifs with h2 h1
    · have h2' : (0:ℝ) < occurring xs 2 := by exact_mod_cast h2
      have : (0:ℝ) ≤ (xs.length - 1) * occurring xs 1 := mul_nonneg (by linarith) (by positivity)
      rw [div_le_one (by positivity)]; linarith
    · have h1' : (1:ℝ) ≤ occurring xs 1 := by exact_mod_cast h1
      have : (0:ℝ) ≤ (xs.length - 1) * (occurring xs 1 - 1) := mul_nonneg (by linarith) (by linarith)
      rw [div_le_one (by positivity)]; linarith
    · exact le_rfl
  have hbound : 0 ≤ (if 0 < occurring xs 2 then (occurring xs 1 : ℝ) ^ 2 / (2 * occurring xs 2)
        else (occurring xs 1 : ℝ) * (occurring xs 1 - 1) / 2) / xs.length := by
    refine div_nonneg ?_ hN0.le
    split_ifs
    · positivity
    · rcases Nat.eq_zero_or_pos (occurring xs 1) with h0 | h0
      · simp [h0]
      · have : (1:ℝ) ≤ occurring xs 1 := by exact_mod_cast h0
        exact div_nonneg (mul_nonneg (by positivity) (by linarith)) (by norm_num)
  by_cases hc : 0 < occurring xs 1 ∧ cwjParam xs ≠ 1
  swap
  · rw [if_neg hc]; exact ⟨le_rfl, hbound⟩
  rw [if_pos hc]
  obtain ⟨hf1, hne⟩ := hc
  set A := cwjParam xs with hA
  have hAlt : 0 < 1 - A := by
    rcases lt_or_eq_of_le hA1 with h' | h'
    · linarith
    · exact absurd h' hne
  have hz : (1 - A) ^ (1 - (xs.length : ℤ)) = ((1 - A) ^ (xs.length - 1))⁻¹ := by
    rw [← zpow_natCast, ← zpow_neg]
    congr 1
    push_cast [Nat.cast_sub (show 1 ≤ xs.length from List.length_pos_iff.2 h)]
    ring
  have t1 := log_series_tail hA0 hA1 (xs.length - 1)
  have t2 := log_series_tail_le hA0 hA1 (xs.length - 1)
  rw [show xs.length - 1 + 1 = xs.length from Nat.succ_pred_eq_of_pos (List.length_pos_iff.2 h)] at t2
  have hcast : ((xs.length - 1 : ℕ) : ℝ) + 1 = xs.length := by
    push_cast [Nat.cast_sub (show 1 ≤ xs.length from List.length_pos_iff.2 h)]; ring
  rw [hcast] at t2
  have hpw : (1 - A) ^ xs.length = (1 - A) ^ (xs.length - 1) * (1 - A) := by
    rw [← pow_succ, show xs.length - 1 + 1 = xs.length from Nat.succ_pred_eq_of_pos (List.length_pos_iff.2 h)]
  have hcorr : cwjCorr xs ≤ (occurring xs 1 : ℝ) / xs.length * ((1 - A) / (xs.length * A)) := by
    unfold cwjCorr
    simp only [← hA]
    rw [hz, mul_assoc]
    refine mul_le_mul_of_nonneg_left ?_ (by positivity)
    have hpos : (0:ℝ) < (1 - A) ^ (xs.length - 1) := pow_pos hAlt _
    refine (mul_le_mul_of_nonneg_left t2 (inv_nonneg.2 hpos.le)).trans (le_of_eq ?_)
    rw [hpw]; field_simp
  refine ⟨?_, hcorr.trans ?_⟩
  · unfold cwjCorr
    simp only [← hA]
    refine mul_nonneg (mul_nonneg (by positivity) (zpow_nonneg hAlt.le _)) (by linarith)
  have hf1' : (1:ℝ) ≤ occurring xs 1 := by exact_mod_cast hf1
  split_ifs with h2
  · have h2' : (0:ℝ) < occurring xs 2 := by exact_mod_cast h2
    have hAe : A = 2 * occurring xs 2 / ((xs.length - 1) * occurring xs 1 + 2 * occurring xs 2) := by
      rw [hA]; unfold cwjParam; simp only [if_pos h2]
    have hd : (0:ℝ) < (xs.length - 1) * occurring xs 1 + 2 * occurring xs 2 := by
      have : (0:ℝ) ≤ (xs.length - 1) * occurring xs 1 := mul_nonneg (by linarith) (by positivity)
      linarith
    have hr : (1 - A) / (xs.length * A) = ((xs.length - 1) / xs.length) * (occurring xs 1 / (2 * occurring xs 2)) := by
      rw [hAe]; field_simp; ring
    rw [hr]
    have hle : (xs.length - 1 : ℝ) / xs.length ≤ 1 := by rw [div_le_one hN0]; linarith
    calc (occurring xs 1 : ℝ) / xs.length * ((xs.length - 1) / xs.length * (occurring xs 1 / (2 * occurring xs 2)))
        ≤ (occurring xs 1 : ℝ) / xs.length * (1 * (occurring xs 1 / (2 * occurring xs 2))) :=
          mul_le_mul_of_nonneg_left (mul_le_mul_of_nonneg_right hle (by positivity)) (by positivity)
      _ = _ := by field_simp
  · have hAe : A = 2 / ((xs.length - 1) * (occurring xs 1 - 1) + 2) := by
      rw [hA]; unfold cwjParam; simp only [if_neg h2, if_pos hf1]
    have hd0 : (0:ℝ) ≤ (xs.length - 1) * (occurring xs 1 - 1) := mul_nonneg (by linarith) (by linarith)
    have hd : (0:ℝ) < (xs.length - 1) * (occurring xs 1 - 1) + 2 := by linarith
    have hr : (1 - A) / (xs.length * A) = ((xs.length - 1) / xs.length) * ((occurring xs 1 - 1) / 2) := by
      rw [hAe]; field_simp; ring
    rw [hr]
    have hle : (xs.length - 1 : ℝ) / xs.length ≤ 1 := by rw [div_le_one hN0]; linarith
    have h3 : (0:ℝ) ≤ (occurring xs 1 - 1) / 2 := by linarith
    calc (occurring xs 1 : ℝ) / xs.length * ((xs.length - 1) / xs.length * ((occurring xs 1 - 1) / 2))
        ≤ (occurring xs 1 : ℝ) / xs.length * (1 * ((occurring xs 1 - 1) / 2)) :=
          mul_le_mul_of_nonneg_left (mul_le_mul_of_nonneg_right hle h3) (by positivity)
      _ = _ := by field_simp

theorem coverage_bounds {xs : List α} (h : xs ≠ []) :
    1 / (xs.length : ℝ) ≤ coverage xs ∧ coverage xs ≤ 1 ∧ 1 - coverage xs ≤ xs.toFinset.card / xs.length := by
  have hNn : 0 < xs.length := List.length_pos_iff.2 h
  have hN : (1:ℝ) ≤ xs.length := by exact_mod_cast hNn
  have hN0 : (0:ℝ) < xs.length := by linarith
  have hle : occurring xs 1 ≤ xs.length := (occurring_le_card xs 1).trans (List.toFinset_card_le xs)
  unfold coverage
  split_ifs with hc
  · have hcard : (xs.length : ℝ) ≤ xs.toFinset.card := by
      have := occurring_le_card xs 1
      rw [hc] at this; exact_mod_cast this
    refine ⟨le_of_eq (by field_simp; ring), ?_, ?_⟩
    · have : (0:ℝ) ≤ (xs.length - 1) / xs.length := div_nonneg (by linarith) hN0.le
      linarith
    · rw [sub_sub_cancel]
      exact div_le_div_of_nonneg_right (by linarith) hN0.le
  · have h1 : ((occurring xs 1 : ℕ) : ℝ) ≤ xs.length - 1 := by
      have : occurring xs 1 + 1 ≤ xs.length := by omega
      have h2 : ((occurring xs 1 + 1 : ℕ) : ℝ) ≤ xs.length := by exact_mod_cast this
      push_cast at h2; linarith
    refine ⟨?_, ?_, ?_⟩
    · rw [le_sub_iff_add_le, ← add_div, div_le_one hN0]; linarith
    · have : (0:ℝ) ≤ (occurring xs 1 : ℝ) / xs.length := by positivity
      linarith
    · rw [sub_sub_cancel]
      exact div_le_div_of_nonneg_right (by exact_mod_cast occurring_le_card xs 1) hN0.le

theorem chaoShen_close {xs : List α} (h : xs ≠ []) :
    - (xs.toFinset.card / xs.length * entropy xs) ≤ chaoShen xs - entropy xs ∧
    chaoShen xs - entropy xs ≤ xs.toFinset.card * (1 + 2 * Real.log xs.length) / xs.length := by
  obtain ⟨c1, c2, c3⟩ := coverage_bounds h
  set C := coverage xs with hC
  have hN : (1:ℝ) ≤ xs.length := by exact_mod_cast List.length_pos_iff.2 h
  have hN0 : (0:ℝ) < xs.length := by linarith
  have hC0 : 0 < C := lt_of_lt_of_le (by positivity) c1
  have hH := entropy_nonneg xs
  have hq : ∀ a ∈ xs, 0 < C * freq xs a ∧ C * freq xs a ≤ 1 := fun a ha =>
    ⟨mul_pos hC0 (freq_pos ha), mul_le_one₀ c2 (freq_nonneg _ _) (freq_le_one _ _)⟩
  have hbase : - ∑ a ∈ xs.toFinset, (C * freq xs a) * Real.log (C * freq xs a) = C * entropy xs - C * Real.log C := by
    have : ∀ a ∈ xs.toFinset, (C * freq xs a) * Real.log (C * freq xs a) =
        freq xs a * (C * Real.log C) + C * (freq xs a * Real.log (freq xs a)) := fun a ha => by
      have := freq_pos (List.mem_toFinset.1 ha)
      rw [Real.log_mul hC0.ne' this.ne']; ring
    rw [Finset.sum_congr rfl this, Finset.sum_add_distrib, ← Finset.sum_mul, ← Finset.mul_sum, sum_freq h, entropy]
    ring
  have hlogC : 0 ≤ - (C * Real.log C) ∧ - (C * Real.log C) ≤ 1 - C := by
    constructor
    · have := Real.log_nonpos hC0.le c2
      nlinarith
    · have := Real.one_sub_inv_le_log_of_pos hC0
      have h2 := mul_le_mul_of_nonneg_left this hC0.le
      rw [mul_sub, mul_one, mul_inv_cancel₀ hC0.ne'] at h2
      linarith
  have hterm : ∀ a ∈ xs, -((C * freq xs a) * Real.log (C * freq xs a)) ≤
      -((C * freq xs a) * Real.log (C * freq xs a) / (1 - (1 - C * freq xs a) ^ xs.length)) ∧
      -((C * freq xs a) * Real.log (C * freq xs a) / (1 - (1 - C * freq xs a) ^ xs.length)) ≤
      -((C * freq xs a) * Real.log (C * freq xs a)) + 2 * Real.log xs.length / xs.length := by
    intro a ha
    obtain ⟨q0, q1⟩ := hq a ha
    set q := C * freq xs a with hqd
    have hL : 0 ≤ - (q * Real.log q) := by
      have := Real.log_nonpos q0.le q1
      nlinarith
    have hp1 : (1 - q) ^ xs.length * (1 + xs.length * q) ≤ 1 := by
      have b1 := one_add_mul_le_pow (show (-2:ℝ) ≤ q by linarith) xs.length
      have b2 : (1 - q) ^ xs.length * (1 + xs.length * q) ≤ (1 - q) ^ xs.length * (1 + q) ^ xs.length :=
        mul_le_mul_of_nonneg_left b1 (pow_nonneg (by linarith) _)
      rw [← mul_pow] at b2
      exact b2.trans (pow_le_one₀ (by nlinarith) (by nlinarith))
    have hpos : 0 ≤ (1 - q) ^ xs.length := pow_nonneg (by linarith) _
    have hD0 : 0 < 1 - (1 - q) ^ xs.length := by
      have : 0 < xs.length * q := by positivity
      by_contra hh
      push Not at hh
      have h1 : 1 ≤ (1 - q) ^ xs.length := by linarith
      nlinarith
    have hD1 : 1 - (1 - q) ^ xs.length ≤ 1 := by linarith
    have e : -(q * Real.log q / (1 - (1 - q) ^ xs.length)) = (-(q * Real.log q)) / (1 - (1 - q) ^ xs.length) := by rw [neg_div]
    rw [e]
    refine ⟨by rw [le_div_iff₀ hD0]; nlinarith, ?_⟩
    rw [div_le_iff₀ hD0]
    have hlq : - Real.log q ≤ 2 * Real.log xs.length := by
      have hq2 : 1 / (xs.length : ℝ) * (1 / xs.length) ≤ q := by
        refine mul_le_mul c1 ?_ (by positivity) hC0.le
        unfold freq
        exact div_le_div_of_nonneg_right (cnt_posR ha) hN0.le
      have := Real.log_le_log (by positivity) hq2
      rw [Real.log_mul (by positivity) (by positivity), one_div, Real.log_inv] at this
      linarith
    have hlq0 : 0 ≤ Real.log xs.length := Real.log_nonneg hN
    -- `-q log q (1 - D) ≤ (-log q)/N · D`
    have k1 : (1 - q) ^ xs.length * (xs.length * q) ≤ 1 - (1 - q) ^ xs.length := by linarith
    have k2 : q * (1 - q) ^ xs.length ≤ (1 - (1 - q) ^ xs.length) / xs.length := by
      rw [le_div_iff₀ hN0]; linarith
    have hlq' : 0 ≤ - Real.log q := by have := Real.log_nonpos q0.le q1; linarith
    have k3 : (- Real.log q) * (q * (1 - q) ^ xs.length) ≤ (2 * Real.log xs.length) * ((1 - (1 - q) ^ xs.length) / xs.length) :=
      mul_le_mul hlq k2 (by positivity) (by positivity)
    have e2 : (-(q * Real.log q) + 2 * Real.log xs.length / xs.length) * (1 - (1 - q) ^ xs.length) =
        -(q * Real.log q) - (- Real.log q) * (q * (1 - q) ^ xs.length) +
          (2 * Real.log xs.length) * ((1 - (1 - q) ^ xs.length) / xs.length) := by ring
    rw [e2]; linarith
  have hCS : chaoShen xs = ∑ a ∈ xs.toFinset,
      -((C * freq xs a) * Real.log (C * freq xs a) / (1 - (1 - C * freq xs a) ^ xs.length)) := by
    unfold chaoShen; rw [← Finset.sum_neg_distrib]
  have lo : C * entropy xs - C * Real.log C ≤ chaoShen xs := by
    rw [hCS, ← hbase, ← Finset.sum_neg_distrib]
    exact Finset.sum_le_sum fun a ha => (hterm a (List.mem_toFinset.1 ha)).1
  have hi : chaoShen xs ≤ C * entropy xs - C * Real.log C + xs.toFinset.card * (2 * Real.log xs.length / xs.length) := by
    rw [hCS, ← hbase, ← Finset.sum_neg_distrib]
    refine (Finset.sum_le_sum fun a ha => (hterm a (List.mem_toFinset.1 ha)).2).trans (le_of_eq ?_)
    rw [Finset.sum_add_distrib, Finset.sum_const, nsmul_eq_mul]
  constructor
  · have := mul_le_mul_of_nonneg_right c3 hH
    nlinarith [hlogC.1]
  · have e : (xs.toFinset.card : ℝ) * (1 + 2 * Real.log xs.length) / xs.length =
        xs.toFinset.card / xs.length + xs.toFinset.card * (2 * Real.log xs.length / xs.length) := by ring
    rw [e]
    have : (1 - C) * entropy xs ≥ 0 := mul_nonneg (by linarith) hH
    nlinarith [hlogC.2]

end

end Verif
