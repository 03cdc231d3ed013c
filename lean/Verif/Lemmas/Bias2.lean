import Verif.Lemmas.Bias
import Mathlib.Analysis.SpecialFunctions.Log.Deriv
import Mathlib.Analysis.SpecialFunctions.Log.NegMulLog

/-! # Helper lemmas: Chao–Wang–Jost, Zhang, Bonachela -/

namespace Verif

open Spec

theorem psi_sub (n N : Nat) (hn : 0 < n) (h : n ≤ N) :
    psi N - psi n = ∑ k ∈ Finset.Ico n N, 1 / (k : ℝ) := by
  obtain ⟨d, rfl⟩ := Nat.exists_eq_add_of_le h
  induction d with
  | zero => simp
  | succ d ih =>
    have ih := ih (by omega)
    rw [← add_assoc, Finset.sum_Ico_succ_top (by omega), ← ih]
    unfold psi
    have : n + d + 1 - 1 = (n + d - 1) + 1 := by omega
    rw [this, Finset.sum_range_succ]
    have h2 : ((n + d - 1 : ℕ) : ℝ) + 1 = ((n + d : ℕ) : ℝ) := by
      rw [← Nat.cast_add_one]; congr 1; omega
    rw [h2]; ring

/-- tail of the logarithm series -/
theorem log_series_tail {A : ℝ} (h0 : 0 < A) (h1 : A ≤ 1) (m : Nat) :
    ∑ r ∈ Finset.Icc 1 m, (1 - A) ^ r / r ≤ - Real.log A := by
  have hx : |1 - A| < 1 := by rw [abs_lt]; constructor <;> linarith
  have hs := Real.hasSum_pow_div_log_of_abs_lt_one hx
  rw [sub_sub_cancel] at hs
  have e : ∑ r ∈ Finset.Icc 1 m, (1 - A) ^ r / (r : ℝ) =
      ∑ i ∈ Finset.range m, (1 - A) ^ (i + 1) / ((i : ℝ) + 1) := by
    rw [Finset.range_eq_Ico, ← Finset.Ico_add_one_right_eq_Icc]
    rw [Finset.sum_Ico_add' (fun r : ℕ => (1 - A) ^ r / (r : ℝ)) 0 m 1 |>.symm]
    simp
  rw [e]
  refine sum_le_hasSum _ (fun i _ => ?_) hs
  have : 0 ≤ 1 - A := by linarith
  positivity

section
variable {α : Type} [LinearOrder α]

theorem cwjA_eq (xs : List α) : cwjA (mkData xs) = cwjParam xs := by
  unfold cwjA cwjParam
  have h1 := countEq_mkData xs 1
  have h2 := countEq_mkData xs 2
  simp only [Nat.cast_one, Nat.cast_ofNat] at h1 h2
  simp only [h1, h2, mkData_N, Int.cast_natCast]

theorem occurring_pos_exists {xs : List α} {m : Nat} (h : 0 < occurring xs m) :
    ∃ a ∈ xs, cnt xs a = m := by
  obtain ⟨a, ha⟩ := Finset.card_pos.1 h
  rw [Finset.mem_filter, List.mem_toFinset] at ha
  exact ⟨a, ha.1, ha.2⟩

theorem cwjParam_pos {xs : List α} (h : xs ≠ []) : 0 < cwjParam xs := by
  have h1 : (1:ℝ) ≤ xs.length := by exact_mod_cast List.length_pos_iff.2 h
  unfold cwjParam
  simp only
  split
  · rename_i h2
    have h2' : (0:ℝ) < occurring xs 2 := by exact_mod_cast h2
    have : (0:ℝ) ≤ (xs.length - 1) * (occurring xs 1 : ℝ) := mul_nonneg (by linarith) (by positivity)
    positivity
  · split
    · rename_i h2
      have h2' : (1:ℝ) ≤ occurring xs 1 := by exact_mod_cast h2
      have : (0:ℝ) ≤ (xs.length - 1) * ((occurring xs 1 : ℝ) - 1) := mul_nonneg (by linarith) (by linarith)
      positivity
    · norm_num

theorem cwjParam_le_one {xs : List α} (h : xs ≠ []) : cwjParam xs ≤ 1 := by
  have h1 : (1:ℝ) ≤ xs.length := by exact_mod_cast List.length_pos_iff.2 h
  unfold cwjParam
  simp only
  split
  · rename_i h2
    have h2' : (0:ℝ) < occurring xs 2 := by exact_mod_cast h2
    have : (0:ℝ) ≤ (xs.length - 1) * (occurring xs 1 : ℝ) := mul_nonneg (by linarith) (by positivity)
    rw [div_le_one (by positivity)]
    linarith
  · split
    · rename_i h2
      have h2' : (1:ℝ) ≤ occurring xs 1 := by exact_mod_cast h2
      have : (0:ℝ) ≤ (xs.length - 1) * ((occurring xs 1 : ℝ) - 1) := mul_nonneg (by linarith) (by linarith)
      rw [div_le_one (by positivity)]
      linarith
    · norm_num

theorem cwjCorr_nonneg {xs : List α} (h : xs ≠ []) : 0 ≤ cwjCorr xs := by
  unfold cwjCorr
  have h1 := cwjParam_le_one h
  have := log_series_tail (cwjParam_pos h) h1 (xs.length - 1)
  have h3 : 0 ≤ (1 - cwjParam xs) ^ (1 - (xs.length : ℤ)) := zpow_nonneg (by linarith) _
  refine mul_nonneg (mul_nonneg (by positivity) h3) (by linarith)

theorem cwjCorrection_eq {xs : List α} (h : xs ≠ []) : cwjCorrection (mkData xs) = cwjCorr xs := by
  have hN := List.length_pos_iff.2 h
  unfold cwjCorrection cwjCorr
  have h1 := countEq_mkData xs 1
  simp only [Nat.cast_one] at h1
  simp only [cwjA_eq, h1, mkData_N, Int.cast_natCast, Int.toNat_natCast]
  have e1 : (1 - cwjParam xs) ^ (1 - (xs.length : ℤ)) = ((1 - cwjParam xs) ^ (xs.length - 1))⁻¹ := by
    rw [← zpow_natCast, ← zpow_neg]
    congr 1
    push_cast [Nat.cast_sub (show 1 ≤ xs.length from hN)]
    ring
  rw [e1]
  congr 2
  rw [← List.sum_toFinset _ List.nodup_range, List.toFinset_range, Finset.range_eq_Ico,
    ← Finset.Ico_add_one_right_eq_Icc,
    ← Finset.sum_Ico_add' (fun r : ℕ => (1 - cwjParam xs) ^ r / (r : ℝ)) 0 (xs.length - 1) 1]
  refine Finset.sum_congr rfl fun i _ => ?_
  push_cast; ring

theorem filter_counts_pos (xs : List α) :
    ((mkData xs).counts.filter (fun c => decide (1 ≤ c))) = (mkData xs).counts := by
  rw [mkData_counts, List.filter_eq_self]
  intro c hc
  obtain ⟨a, ha, rfl⟩ := List.mem_map.1 hc
  have := cnt_pos_iff.2 (mem_npUnique.1 ha)
  simp; omega

theorem cwjSimple_ok {xs : List α} (h : xs ≠ []) {b : Base} (hb : b.Valid) :
    cwjSimple b (mkData xs) = .ok (chaoWangJost xs / b.ln) := by
  unfold cwjSimple
  have hN := List.length_pos_iff.2 h
  have h1 := countEq_mkData xs 1
  simp only [Nat.cast_one] at h1
  rw [filter_counts_pos, mkData_counts, mkData_N, npDigamma_nat _ hN]
  simp only [bind, Except.bind]
  rw [mapM_map']
  rw [mapM_ok (g := fun a => (cnt xs a : ℝ) * (psi xs.length - psi (cnt xs a)))]
  · simp only [cwjA_eq, h1, cwjCorrection_eq h, sum_npUnique', scaleBase_ok hb]
    congr 2
    have e : (∑ a ∈ xs.toFinset, (cnt xs a : ℝ) * (psi xs.length - psi (cnt xs a))) / (((xs.length : ℕ) : ℤ) : ℝ) =
        ∑ a ∈ xs.toFinset, freq xs a * ∑ k ∈ Finset.Ico (cnt xs a) xs.length, 1 / (k : ℝ) := by
      rw [Finset.sum_div]
      refine Finset.sum_congr rfl fun a ha => ?_
      rw [← psi_sub _ _ (cnt_pos_iff.2 (List.mem_toFinset.1 ha)) (cnt_le_length xs a)]
      unfold freq
      push_cast; ring
    rw [e]
    unfold chaoWangJost
    by_cases hc : 0 < occurring xs 1 ∧ cwjParam xs ≠ 1
    · rw [if_pos hc, if_pos hc.symm]
    · rw [if_neg hc, if_neg (fun h => hc h.symm), add_zero]
  · intro a ha
    have := cnt_pos_iff.2 (mem_npUnique.1 ha)
    simp only [npDigamma_nat _ this, pure, Except.pure, Int.cast_natCast]

end

end Verif
