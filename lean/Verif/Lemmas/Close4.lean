import Verif.Lemmas.Close3
import Verif.Spec.Consistency
import Mathlib.Analysis.SpecialFunctions.Pow.Asymptotics

/-! # Helper lemmas: one rate for all bias corrections -/

namespace Verif

open Spec

theorem vanishing_nonneg (N : Nat) : 0 ≤ vanishing N := by
  unfold vanishing
  rcases Nat.eq_zero_or_pos N with rfl | h
  · simp
  · have : (1:ℝ) ≤ N := by exact_mod_cast h
    have := Real.log_nonneg this
    positivity

theorem div_le_vanishing {N : Nat} (h : 0 < N) {c : ℝ} (hc : 0 ≤ c) : c * (1 + Real.log N) / N ≤ c * vanishing N := by
  have hN : (1:ℝ) ≤ N := by exact_mod_cast h
  have hl := Real.log_nonneg hN
  have hs : Real.sqrt N ≤ N := by
    rw [Real.sqrt_le_left (by linarith)]; nlinarith
  unfold vanishing
  rw [← mul_div_assoc]
  exact div_le_div_of_nonneg_left (by positivity) (Real.sqrt_pos.2 (by linarith)) hs

theorem div_le_vanishing' {N : Nat} (h : 0 < N) {c : ℝ} (hc : 0 ≤ c) : c / N ≤ c * vanishing N := by
  have hN : (1:ℝ) ≤ N := by exact_mod_cast h
  have hl := Real.log_nonneg hN
  refine le_trans ?_ (div_le_vanishing h hc)
  refine div_le_div_of_nonneg_right ?_ (by linarith)
  nlinarith

theorem vanishing_tendsto : Filter.Tendsto vanishing Filter.atTop (nhds 0) := by
  have h : Filter.Tendsto (fun x : ℝ => (1 + Real.log x) / Real.sqrt x) Filter.atTop (nhds 0) := by
    have h1 : Filter.Tendsto (fun x : ℝ => Real.log x / x ^ (1/2 : ℝ)) Filter.atTop (nhds 0) :=
      (isLittleO_log_rpow_atTop (by norm_num : (0:ℝ) < 1/2)).tendsto_div_nhds_zero
    have h2 : Filter.Tendsto (fun x : ℝ => 1 / x ^ (1/2 : ℝ)) Filter.atTop (nhds 0) := by
      simp only [one_div]
      exact (tendsto_rpow_atTop (by norm_num : (0:ℝ) < 2⁻¹)).inv_tendsto_atTop
    have := h2.add h1
    simp only [add_zero, ← add_div] at this
    simpa only [Real.sqrt_eq_rpow] using this
  exact h.comp tendsto_natCast_atTop_atTop

section
variable {α : Type} [DecidableEq α]

theorem entropy_le_logN {xs : List α} (h : xs ≠ []) : entropy xs ≤ Real.log xs.length := by
  unfold entropy
  rw [← Finset.sum_neg_distrib]
  calc ∑ a ∈ xs.toFinset, - (freq xs a * Real.log (freq xs a)) ≤ ∑ a ∈ xs.toFinset, freq xs a * Real.log xs.length :=
        Finset.sum_le_sum fun a ha => by
          have := mul_le_mul_of_nonneg_left (neg_log_freq_le (List.mem_toFinset.1 ha)) (freq_nonneg xs a)
          linarith
    _ = Real.log xs.length := by rw [← Finset.sum_mul, sum_freq h, one_mul]

theorem entropy_nn (xs : List α) : 0 ≤ entropy xs := by
  unfold entropy
  rw [← Finset.sum_neg_distrib]
  refine Finset.sum_nonneg fun a _ => ?_
  have := mul_nonneg (freq_nonneg xs a) (neg_nonneg.2 (Real.log_nonpos (freq_nonneg xs a) (freq_le_one xs a)))
  linarith

theorem shrink_rate {xs : List α} (h2 : 2 ≤ xs.length) {K : Nat} (hK : xs.toFinset.card ≤ K) :
    |shrink xs - entropy xs| ≤ 2 * K * vanishing xs.length := by
  have hne : xs ≠ [] := by rintro rfl; simp at h2
  have hN2 : (2:ℝ) ≤ xs.length := by exact_mod_cast h2
  have hl := Real.log_nonneg (by linarith : (1:ℝ) ≤ xs.length)
  have hKr : (xs.toFinset.card : ℝ) ≤ K := by exact_mod_cast hK
  have hc1 : (1:ℝ) ≤ xs.toFinset.card := by
    obtain ⟨a, ha⟩ := List.exists_mem_of_ne_nil _ hne
    exact cardR_pos ha
  refine (shrink_close h2).trans ?_
  have : Real.sqrt (xs.toFinset.card / ((xs.length : ℝ) - 1)) ≤ 2 * K / Real.sqrt xs.length := by
    rw [Real.sqrt_le_left (by positivity), div_pow, Real.sq_sqrt (by linarith), div_le_div_iff₀ (by linarith) (by linarith)]
    have hKK : (K:ℝ) ≤ (K:ℝ) ^ 2 := by nlinarith
    nlinarith
  calc _ ≤ 2 * K / Real.sqrt xs.length * (1 + Real.log xs.length) := mul_le_mul_of_nonneg_right this (by linarith)
    _ = 2 * K * vanishing xs.length := by unfold vanishing; ring

theorem value_rate {m : Method} (hm : m.Regular) {xs : List α} (h2 : 2 ≤ xs.length) {K : Nat} (hK : xs.toFinset.card ≤ K) :
    |m.value xs - entropy xs| ≤ m.constant K * vanishing xs.length := by
  have hne : xs ≠ [] := by rintro rfl; simp at h2
  have hNp : 0 < xs.length := by omega
  have hN2 : (2:ℝ) ≤ xs.length := by exact_mod_cast h2
  have hN0 : (0:ℝ) < xs.length := by linarith
  have hl := Real.log_nonneg (by linarith : (1:ℝ) ≤ xs.length)
  have hKr : (xs.toFinset.card : ℝ) ≤ K := by exact_mod_cast hK
  have hc1 : (1:ℝ) ≤ xs.toFinset.card := by
    obtain ⟨a, ha⟩ := List.exists_mem_of_ne_nil _ hne
    exact cardR_pos ha
  have hK1 : (1:ℝ) ≤ K := by linarith
  have v0 := vanishing_nonneg xs.length
  cases m with
  | grassberger =>
    obtain ⟨g1, g2⟩ := grassberger_close xs
    have a1 := div_le_vanishing' hNp (c := 2 * K) (by positivity)
    have a2 : 2 * (xs.toFinset.card : ℝ) / xs.length ≤ 2 * K / xs.length := div_le_div_of_nonneg_right (by linarith) hN0.le
    have a3 : - (2 * K / (xs.length : ℝ)) ≤ - (xs.toFinset.card : ℝ) / xs.length := by
      rw [← neg_div]; exact div_le_div_of_nonneg_right (by linarith) hN0.le
    show |Spec.grassberger xs - entropy xs| ≤ 2 * K * vanishing xs.length
    rw [abs_le]; constructor <;> linarith
  | chaoShen =>
    obtain ⟨g1, g2⟩ := chaoShen_close hne
    have a1 := div_le_vanishing hNp (c := 2 * K) (by positivity)
    have hE := entropy_le_logN hne
    have hE0 := entropy_nn xs
    have a2 : xs.toFinset.card * (1 + 2 * Real.log xs.length) / (xs.length : ℝ) ≤ 2 * K * (1 + Real.log xs.length) / xs.length :=
      div_le_div_of_nonneg_right (by nlinarith) hN0.le
    have a3 : xs.toFinset.card / xs.length * entropy xs ≤ 2 * K * (1 + Real.log xs.length) / xs.length := by
      rw [div_mul_eq_mul_div]
      exact div_le_div_of_nonneg_right (by nlinarith) hN0.le
    show |Spec.chaoShen xs - entropy xs| ≤ 2 * K * vanishing xs.length
    rw [abs_le]; constructor <;> linarith
  | chaoWangJost =>
    obtain ⟨g1, g2⟩ := cwj_close xs hne
    obtain ⟨z1, z2⟩ := zhang_close hne
    have ho : (occurring xs 1 : ℝ) ≤ K := by exact_mod_cast (occurring_le_card xs 1).trans hK
    have ho0 : (0:ℝ) ≤ occurring xs 1 := by positivity
    have hx : (if 0 < occurring xs 2 then (occurring xs 1 : ℝ) ^ 2 / (2 * occurring xs 2)
        else (occurring xs 1 : ℝ) * (occurring xs 1 - 1) / 2) ≤ K ^ 2 := by
      split_ifs with hh
      · have : (1:ℝ) ≤ occurring xs 2 := by exact_mod_cast hh
        rw [div_le_iff₀ (by positivity)]
        nlinarith
      · nlinarith
    have a1 := div_le_vanishing' hNp (c := 2 * (K:ℝ) ^ 2) (by positivity)
    have a2 := div_le_div_of_nonneg_right hx hN0.le
    have a3 : ((xs.toFinset.card : ℝ) - 1) / xs.length ≤ K ^ 2 / xs.length := div_le_div_of_nonneg_right (by nlinarith) hN0.le
    have a4 : 2 * (K:ℝ) ^ 2 / xs.length = K ^ 2 / xs.length + K ^ 2 / xs.length := by ring
    show |Spec.chaoWangJost xs - entropy xs| ≤ 2 * K ^ 2 * vanishing xs.length
    have := mul_nonneg (by positivity : (0:ℝ) ≤ 2 * K ^ 2) v0
    rw [abs_le]; constructor <;> linarith
  | shrink =>
    obtain ⟨g1, g2⟩ := shrinkCross_close h2
    have a1 := div_le_vanishing' hNp (c := 2 * K) (by positivity)
    have a2 : (xs.toFinset.card : ℝ) / ((xs.length : ℝ) - 1) ≤ 2 * K / xs.length := by
      rw [div_le_div_iff₀ (by linarith) hN0]; nlinarith
    show |Spec.shrinkCross xs - entropy xs| ≤ 2 * K * vanishing xs.length
    have := mul_nonneg (by positivity : (0:ℝ) ≤ 2 * K) v0
    rw [abs_le]; constructor <;> linarith
  | zhang =>
    obtain ⟨z1, z2⟩ := zhang_close hne
    have a1 := div_le_vanishing' hNp (c := (K:ℝ)) (by positivity)
    have a3 : ((xs.toFinset.card : ℝ) - 1) / xs.length ≤ K / xs.length := div_le_div_of_nonneg_right (by linarith) hN0.le
    show |Spec.zhang xs - entropy xs| ≤ K * vanishing xs.length
    have := mul_nonneg (by positivity : (0:ℝ) ≤ K) v0
    rw [abs_le]; constructor <;> linarith
  | bonachela =>
    obtain ⟨g1, g2⟩ := bonachela_close hne
    have a1 := div_le_vanishing hNp (c := 5 * (K:ℝ)) (by positivity)
    have a2 : xs.toFinset.card * (1 + Real.log xs.length) / ((xs.length : ℝ) + 2) ≤ 5 * K * (1 + Real.log xs.length) / xs.length := by
      refine (div_le_div_of_nonneg_left (by positivity) hN0 (by linarith)).trans (div_le_div_of_nonneg_right ?_ hN0.le)
      nlinarith
    have a3 : 5 * xs.toFinset.card / ((xs.length : ℝ) + 2) ≤ 5 * K * (1 + Real.log xs.length) / xs.length := by
      refine (div_le_div_of_nonneg_left (by positivity) hN0 (by linarith)).trans (div_le_div_of_nonneg_right ?_ hN0.le)
      nlinarith
    show |Spec.bonachela xs - entropy xs| ≤ 5 * K * vanishing xs.length
    rw [abs_le]; constructor <;> linarith
  | ansb => exact hm.elim
  | bayes p S =>
    obtain ⟨hp, hS⟩ := hm
    set k := supportSize xs S with hk
    have hk1 : 1 ≤ k := by
      rw [hk]; unfold supportSize
      cases S with
      | none => exact hc1
      | some s => have := hS s rfl; show (1:ℝ) ≤ (s:ℝ); exact_mod_cast this
    have hkK : k ≤ ((S.getD K : ℕ) : ℝ) := by
      rw [hk]; unfold supportSize
      cases S with
      | none => exact hKr
      | some s => exact le_rfl
    have hs1 : 1 ≤ Real.sqrt xs.length := by rw [Real.one_le_sqrt]; linarith
    have hsN : Real.sqrt xs.length ≤ xs.length := by rw [Real.sqrt_le_left hN0.le]; nlinarith
    have ha0 : 0 ≤ p.conc k xs.length := by
      cases p with
      | fixed a => exact hp a rfl
      | schuermannGrassberger => exact div_nonneg zero_le_one (by linarith)
      | minimax => exact div_nonneg (by linarith) (by linarith)
    have hA0 : 0 ≤ p.weight (S.getD K) := by
      cases p with
      | fixed a => exact mul_nonneg (by positivity) (hp a rfl)
      | schuermannGrassberger => exact zero_le_one
      | minimax => exact zero_le_one
    have hkA : k * p.conc k xs.length ≤ p.weight (S.getD K) * Real.sqrt xs.length := by
      cases p with
      | fixed a =>
        have ha := hp a rfl
        show k * a ≤ (S.getD K : ℕ) * a * Real.sqrt xs.length
        have h1 : k * a ≤ (S.getD K : ℕ) * a := mul_le_mul_of_nonneg_right hkK ha
        have h2 : 0 ≤ ((S.getD K : ℕ) : ℝ) * a := mul_nonneg (by positivity) ha
        nlinarith
      | schuermannGrassberger =>
        show k * (1 / k) ≤ 1 * Real.sqrt xs.length
        rw [mul_one_div_cancel (by linarith)]; linarith
      | minimax =>
        show k * (Real.sqrt xs.length / k) ≤ 1 * Real.sqrt xs.length
        rw [mul_div_cancel₀ _ (by linarith)]; linarith
    have hka0 : 0 ≤ k * p.conc k xs.length := mul_nonneg (by linarith) ha0
    refine (bayes_close hne hk1 ha0).trans ?_
    show _ ≤ K * p.weight (S.getD K) * (1 + p.weight (S.getD K)) * vanishing xs.length
    set A := p.weight (S.getD K)
    set w := k * p.conc k xs.length
    have b1 : w / (xs.length + w) ≤ A / Real.sqrt xs.length := by
      rw [div_le_div_iff₀ (by linarith) (by linarith)]
      have e : Real.sqrt xs.length * Real.sqrt xs.length = xs.length := Real.mul_self_sqrt hN0.le
      nlinarith [mul_nonneg hA0 hka0, mul_le_mul_of_nonneg_right hkA (by linarith : 0 ≤ Real.sqrt xs.length)]
    have b2 : 1 + Real.log (xs.length + w) ≤ (1 + A) * (1 + Real.log xs.length) := by
      have c1 : (xs.length : ℝ) + w ≤ xs.length * (1 + A) := by nlinarith
      have c2 := Real.log_le_log (by linarith) c1
      rw [Real.log_mul hN0.ne' (by linarith)] at c2
      have c3 := Real.log_le_sub_one_of_pos (by linarith : 0 < 1 + A)
      nlinarith [mul_nonneg hA0 hl]
    have hlw : 0 ≤ Real.log (xs.length + w) := Real.log_nonneg (by linarith)
    calc xs.toFinset.card * (w / (xs.length + w)) * (1 + Real.log (xs.length + w))
        ≤ K * (A / Real.sqrt xs.length) * ((1 + A) * (1 + Real.log xs.length)) :=
          mul_le_mul (mul_le_mul hKr b1 (by positivity) (by linarith)) b2 (by linarith) (by positivity)
      _ = K * A * (1 + A) * vanishing xs.length := by unfold vanishing; ring

end

end Verif
