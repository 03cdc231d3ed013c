import Verif.Lemmas.Bias5
import Verif.Props.Bias3
import Mathlib.NumberTheory.Harmonic.EulerMascheroni

/-! # Helper lemmas: distance of the bias-corrected entropies from the plug-in entropy -/

namespace Verif

open Spec

section
variable {α : Type} [DecidableEq α]

theorem cnt_posR {xs : List α} {a : α} (ha : a ∈ xs) : (1:ℝ) ≤ cnt xs a := by
  exact_mod_cast cnt_pos_iff.2 ha

theorem cnt_leR (xs : List α) (a : α) : (cnt xs a : ℝ) ≤ xs.length := by exact_mod_cast cnt_le_length xs a

theorem lenR_pos {xs : List α} {a : α} (ha : a ∈ xs) : (0:ℝ) < xs.length := by
  exact_mod_cast List.length_pos_of_mem ha

theorem entropy_ratio (xs : List α) :
    entropy xs = ∑ a ∈ xs.toFinset, freq xs a * Real.log (xs.length / cnt xs a) := by
  unfold entropy
  rw [← Finset.sum_neg_distrib]
  refine Finset.sum_congr rfl fun a ha => ?_
  rw [freq, ← mul_neg, ← Real.log_inv, inv_div]

/-- termwise closeness gives closeness of the estimates -/
theorem close_terms (xs : List α) (F : α → ℝ) (lo hi : ℝ)
    (h : ∀ a ∈ xs, Real.log (xs.length / cnt xs a) + lo / cnt xs a ≤ F a ∧ F a ≤ Real.log (xs.length / cnt xs a) + hi / cnt xs a) :
    lo * xs.toFinset.card / xs.length ≤ ∑ a ∈ xs.toFinset, freq xs a * F a - entropy xs ∧
    ∑ a ∈ xs.toFinset, freq xs a * F a - entropy xs ≤ hi * xs.toFinset.card / xs.length := by
  have e : ∀ c : ℝ, c * xs.toFinset.card / xs.length = ∑ a ∈ xs.toFinset, freq xs a * (c / cnt xs a) := by
    intro c
    have : ∀ a ∈ xs.toFinset, freq xs a * (c / cnt xs a) = c / xs.length := fun a ha => by
      have := cnt_posR (List.mem_toFinset.1 ha)
      have h2 := lenR_pos (List.mem_toFinset.1 ha)
      unfold freq
      field_simp
    rw [Finset.sum_congr rfl this, Finset.sum_const, nsmul_eq_mul]
    ring
  rw [entropy_ratio, ← Finset.sum_sub_distrib, e, e]
  constructor <;> refine Finset.sum_le_sum fun a ha => ?_ <;>
  · rw [← mul_sub]
    refine mul_le_mul_of_nonneg_left ?_ (freq_nonneg _ _)
    have := h a (List.mem_toFinset.1 ha)
    linarith [this.1, this.2]

end

/-- `log (N/n) ≤ Σ_{k=n}^{N−1} 1/k ≤ log (N/n) + 1/n − 1/N` -/
theorem harmonic_between (n N : Nat) (hn : 0 < n) (h : n ≤ N) :
    Real.log (N / n) ≤ ∑ k ∈ Finset.Ico n N, 1 / (k : ℝ) ∧
    ∑ k ∈ Finset.Ico n N, 1 / (k : ℝ) ≤ Real.log (N / n) + 1 / n - 1 / N := by
  have hn' : (0:ℝ) < n := by exact_mod_cast hn
  induction N, h using Nat.le_induction with
  | base => simp [div_self hn'.ne']
  | succ N hN ih =>
    have hN' : (0:ℝ) < N := lt_of_lt_of_le hn' (by exact_mod_cast hN)
    rw [Finset.sum_Ico_succ_top hN]
    have e : Real.log ((N + 1 : ℕ) / n) = Real.log (N / n) + Real.log ((N + 1) / N) := by
      rw [← Real.log_mul (by positivity) (by positivity)]
      congr 1; push_cast; field_simp
    have u : Real.log (((N:ℝ) + 1) / N) ≤ 1 / N := by
      have := Real.log_le_sub_one_of_pos (show (0:ℝ) < (N + 1) / N by positivity)
      have e : ((N:ℝ) + 1) / N - 1 = 1 / N := by field_simp; ring
      linarith
    have l : 1 / ((N:ℝ) + 1) ≤ Real.log (((N:ℝ) + 1) / N) := by
      have := Real.one_sub_inv_le_log_of_pos (show (0:ℝ) < (N + 1) / N by positivity)
      have e : 1 - (((N:ℝ) + 1) / N)⁻¹ = 1 / (N + 1) := by field_simp; ring
      linarith
    rw [e]
    push_cast
    constructor <;> linarith [ih.1, ih.2]

/-- `log n − 1/n ≤ ψ(n) ≤ log n` -/
theorem psi_between (n : Nat) (hn : 0 < n) : Real.log n - 1 / n ≤ psi n ∧ psi n ≤ Real.log n := by
  obtain ⟨m, rfl⟩ : ∃ m, n = m + 1 := ⟨n - 1, by omega⟩
  have e : ∀ m : Nat, ((harmonic m : ℚ) : ℝ) = ∑ k ∈ Finset.range m, 1 / ((k : ℝ) + 1) := fun m => by
    simp [harmonic]
  have h1 := Real.eulerMascheroniSeq_lt_eulerMascheroniConstant m
  have h2 := Real.eulerMascheroniConstant_lt_eulerMascheroniSeq' (m + 1)
  unfold Real.eulerMascheroniSeq at h1
  unfold Real.eulerMascheroniSeq' at h2
  rw [if_neg (by omega)] at h2
  rw [e] at h1 h2
  rw [Finset.sum_range_succ] at h2
  unfold psi
  simp only [Nat.add_sub_cancel]
  push_cast at h1 h2 ⊢
  constructor <;> linarith

section
variable {α : Type} [DecidableEq α]

theorem zhang_harmonic_spec (xs : List α) :
    zhang xs = ∑ a ∈ xs.toFinset, freq xs a * ∑ k ∈ Finset.Ico (cnt xs a) xs.length, 1 / (k : ℝ) := by
  unfold zhang
  refine Finset.sum_congr rfl fun a ha => ?_
  rw [← zhangInner_eq _ _ (cnt_pos_iff.2 (List.mem_toFinset.1 ha)) List.countP_le_length]
  rfl

theorem zhang_close {xs : List α} (h : xs ≠ []) :
    0 ≤ zhang xs - entropy xs ∧ zhang xs - entropy xs ≤ ((xs.toFinset.card : ℝ) - 1) / xs.length := by
  have hN : (0:ℝ) < xs.length := by exact_mod_cast List.length_pos_iff.2 h
  rw [zhang_harmonic_spec, entropy_ratio, ← Finset.sum_sub_distrib]
  have key : ∀ a ∈ xs.toFinset, 0 ≤ freq xs a * ∑ k ∈ Finset.Ico (cnt xs a) xs.length, 1 / (k : ℝ) -
      freq xs a * Real.log (xs.length / cnt xs a) ∧ freq xs a * ∑ k ∈ Finset.Ico (cnt xs a) xs.length, 1 / (k : ℝ) -
      freq xs a * Real.log (xs.length / cnt xs a) ≤ 1 / xs.length - freq xs a / xs.length := fun a ha => by
    have ha' := List.mem_toFinset.1 ha
    have hc := cnt_posR ha'
    obtain ⟨b1, b2⟩ := harmonic_between (cnt xs a) xs.length (cnt_pos_iff.2 ha') (cnt_le_length xs a)
    have hf := freq_nonneg xs a
    rw [← mul_sub]
    refine ⟨mul_nonneg hf (by linarith), ?_⟩
    have e : 1 / (xs.length : ℝ) - freq xs a / xs.length = freq xs a * (1 / cnt xs a - 1 / xs.length) := by
      unfold freq; field_simp
    rw [e]
    exact mul_le_mul_of_nonneg_left (by linarith) hf
  refine ⟨Finset.sum_nonneg fun a ha => (key a ha).1, (Finset.sum_le_sum fun a ha => (key a ha).2).trans (le_of_eq ?_)⟩
  rw [Finset.sum_sub_distrib, ← Finset.sum_div xs.toFinset (freq xs), sum_freq h, Finset.sum_const, nsmul_eq_mul]
  ring

theorem grassberger_close (xs : List α) :
    - (xs.toFinset.card : ℝ) / xs.length ≤ grassberger xs - entropy xs ∧
    grassberger xs - entropy xs ≤ 2 * xs.toFinset.card / xs.length := by
  have key := close_terms xs (fun a => Real.log xs.length - psi (cnt xs a) - (-1) ^ cnt xs a / ((cnt xs a : ℝ) + 1)) (-1) 2
    (fun a ha => by
      have hc := cnt_posR ha
      have hN := lenR_pos ha
      obtain ⟨p1, p2⟩ := psi_between (cnt xs a) (cnt_pos_iff.2 ha)
      have hs : |(-1:ℝ) ^ cnt xs a / ((cnt xs a : ℝ) + 1)| ≤ 1 / cnt xs a := by
        rw [abs_div, abs_pow, abs_neg, abs_one, one_pow, abs_of_pos (by positivity)]
        exact one_div_le_one_div_of_le (by linarith) (by linarith)
      have hs' := abs_le.1 hs
      rw [Real.log_div hN.ne' (by positivity)]
      have e1 : (-1:ℝ) / cnt xs a = - (1 / cnt xs a) := by ring
      have e2 : (2:ℝ) / cnt xs a = 2 * (1 / cnt xs a) := by ring
      rw [e1, e2]
      constructor <;> linarith [hs'.1, hs'.2])
  have e : grassberger xs = ∑ a ∈ xs.toFinset, freq xs a *
    (fun a => Real.log xs.length - psi (cnt xs a) - (-1) ^ cnt xs a / ((cnt xs a : ℝ) + 1)) a := rfl
  rw [e]
  refine ⟨le_trans (le_of_eq ?_) key.1, key.2⟩
  ring

/-- the tail of the logarithm series -/
theorem log_series_tail_le {A : ℝ} (h0 : 0 < A) (h1 : A ≤ 1) (m : Nat) :
    - Real.log A - ∑ r ∈ Finset.Icc 1 m, (1 - A) ^ r / r ≤ (1 - A) ^ (m + 1) / ((m + 1) * A) := by
  have hx : |1 - A| < 1 := by rw [abs_lt]; constructor <;> linarith
  have h1A : 0 ≤ 1 - A := by linarith
  have hs := Real.hasSum_pow_div_log_of_abs_lt_one hx
  rw [sub_sub_cancel] at hs
  have e : ∑ r ∈ Finset.Icc 1 m, (1 - A) ^ r / (r : ℝ) =
      ∑ i ∈ Finset.range m, (1 - A) ^ (i + 1) / ((i : ℝ) + 1) := by
    rw [Finset.range_eq_Ico, ← Finset.Ico_add_one_right_eq_Icc]
    rw [Finset.sum_Ico_add' (fun r : ℕ => (1 - A) ^ r / (r : ℝ)) 0 m 1 |>.symm]
    simp
  rw [e]
  have ht := (hasSum_nat_add_iff' m).2 hs
  have hg := (hasSum_geometric_of_lt_one h1A (by linarith : 1 - A < 1)).mul_left ((1 - A) ^ (m + 1) / (m + 1))
  rw [sub_sub_cancel] at hg
  have := hasSum_le (fun i => ?_) ht hg
  · refine this.trans (le_of_eq ?_)
    field_simp
  · push_cast
    rw [show i + m + 1 = (m + 1) + i by ring, pow_add, mul_div_right_comm]
    refine mul_le_mul_of_nonneg_right ?_ (pow_nonneg h1A _)
    refine div_le_div_of_nonneg_left (pow_nonneg h1A _) (by positivity) ?_
    have : (0:ℝ) ≤ i := by positivity
    linarith

end

end Verif
