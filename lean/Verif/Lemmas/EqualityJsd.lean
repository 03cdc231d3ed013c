import Verif.Lemmas.Equality
import Verif.Props.Divergence

/-! # Helper lemmas: the largest Jensen–Shannon divergence -/

namespace Verif.Spec

variable {α : Type*} [DecidableEq α]

theorem eqj_nonneg (xss : List (List α)) (a : α) : 0 ≤ (xss.map (fun xs => freq xs a)).sum :=
  List.sum_nonneg fun x hx => by
    obtain ⟨xs, -, rfl⟩ := List.mem_map.1 hx
    unfold freq; positivity

theorem eqj_zero {xs : List α} {a : α} (h : a ∉ xs) : freq xs a = 0 := by
  have : cnt xs a = 0 := Nat.eq_zero_of_not_pos (fun h' => h (cnt_pos_iff.1 h'))
  simp [freq, this]

theorem eqj_sum_zero (xss : List (List α)) (a : α) (h : ∀ xs ∈ xss, a ∉ xs) : (xss.map (fun xs => freq xs a)).sum = 0 := by
  rw [List.map_congr_left (fun xs hxs => eqj_zero (h xs hxs))]
  simp

theorem eqj_le (xss : List (List α)) (xs : List α) (h : xs ∈ xss) (a : α) :
    freq xs a ≤ (xss.map (fun xs => freq xs a)).sum := by
  refine List.single_le_sum ?_ _ (List.mem_map.2 ⟨xs, h, rfl⟩)
  intro x hx
  obtain ⟨ys, -, rfl⟩ := List.mem_map.1 hx
  unfold freq; positivity

/-- every symbol gets all its mixture weight from one sample exactly when the supports are pairwise disjoint -/
theorem eqj_pairwise (xss : List (List α)) :
    (∀ xs ∈ xss, ∀ a ∈ xs, freq xs a = (xss.map (fun xs => freq xs a)).sum) ↔
      xss.Pairwise (fun xs ys => ∀ a ∈ xs, a ∉ ys) := by
  induction xss with
  | nil => simp
  | cons x xss ih =>
    rw [List.pairwise_cons, ← ih]
    simp only [List.map_cons, List.sum_cons, List.mem_cons, forall_eq_or_imp]
    constructor
    · rintro ⟨h1, h2⟩
      have hdis : ∀ ys ∈ xss, ∀ a ∈ x, a ∉ ys := by
        intro ys hys a ha ha'
        have e1 := h1 a ha
        have e2 := eqj_le xss ys hys a
        have e3 := freq_pos ha'
        linarith
      refine ⟨hdis, fun xs hxs a ha => ?_⟩
      rw [h2 xs hxs a ha, eqj_zero (xs := x) (fun hax => hdis xs hxs a hax ha), zero_add]
    · rintro ⟨hdis, h2⟩
      refine ⟨fun a ha => ?_, fun xs hxs a ha => ?_⟩
      · rw [eqj_sum_zero xss a (fun ys hys => hdis ys hys a ha), add_zero]
      · rw [eqj_zero (xs := x) (fun hax => hdis xs hxs a hax ha), zero_add]
        exact h2 xs hxs a ha

/-- the Jensen–Shannon divergence of `n` samples is at most `log n`, with equality exactly for pairwise disjoint supports -/
theorem jsd_eq_log_iff (xss : List (List α)) (hne : xss ≠ []) (hx : ∀ xs ∈ xss, xs ≠ []) :
    jsd xss = Real.log xss.length ↔ xss.Pairwise (fun xs ys => ∀ a ∈ xs, a ∉ ys) := by
  have hn : (0:ℝ) < xss.length := by exact_mod_cast List.length_pos_iff.2 hne
  rw [← eqj_pairwise]
  set S : α → ℝ := fun a => (xss.map (fun xs => freq xs a)).sum with hS
  have hmix : ∀ a, mixture xss a = S a / xss.length := fun a => rfl
  have hpos : ∀ xs ∈ xss, ∀ a ∈ xs, 0 < S a := fun xs hxs a ha => (freq_pos ha).trans_le (eqj_le xss xs hxs a)
  have hterm : ∀ xs ∈ xss, ∀ a ∈ xs, Real.log (freq xs a / mixture xss a) =
      Real.log (freq xs a / S a) + Real.log xss.length := by
    intro xs hxs a ha
    rw [hmix, div_div_eq_mul_div, mul_div_right_comm, Real.log_mul (div_pos (freq_pos ha) (hpos xs hxs a ha)).ne' hn.ne']
  have hval : jsd xss = (xss.map (fun xs => ∑ a ∈ xs.toFinset, freq xs a * Real.log (freq xs a / S a))).sum / xss.length
      + Real.log xss.length := by
    unfold jsd
    have : xss.map (fun xs => ∑ a ∈ xs.toFinset, freq xs a * Real.log (freq xs a / mixture xss a)) =
        xss.map (fun xs => (∑ a ∈ xs.toFinset, freq xs a * Real.log (freq xs a / S a)) + Real.log xss.length) := by
      refine List.map_congr_left fun xs hxs => ?_
      rw [← one_mul (Real.log (xss.length : ℝ)), ← eqc_sum_freq xs (hx xs hxs), Finset.sum_mul, ← Finset.sum_add_distrib]
      refine Finset.sum_congr rfl fun a ha => ?_
      rw [hterm xs hxs a (List.mem_toFinset.1 ha)]; ring
    rw [this, sum_map_add', List.map_const', List.sum_replicate, nsmul_eq_mul]
    field_simp
  have hnp : ∀ xs ∈ xss, ∀ a ∈ xs.toFinset, freq xs a * Real.log (freq xs a / S a) ≤ 0 := by
    intro xs hxs a ha
    have ha' := List.mem_toFinset.1 ha
    refine mul_nonpos_of_nonneg_of_nonpos (freq_pos ha').le (Real.log_nonpos (div_pos (freq_pos ha') (hpos xs hxs a ha')).le ?_)
    rw [div_le_one (hpos xs hxs a ha')]
    exact eqj_le xss xs hxs a
  rw [hval, add_eq_right, div_eq_zero_iff, or_iff_left hn.ne']
  constructor
  · intro h0 xs hxs a ha
    have h1 := List.all_zero_of_le_zero_le_of_sum_eq_zero
      (l := xss.map (fun xs => - ∑ a ∈ xs.toFinset, freq xs a * Real.log (freq xs a / S a))) (by
        intro x hx'
        obtain ⟨ys, hys, rfl⟩ := List.mem_map.1 hx'
        exact neg_nonneg.2 (Finset.sum_nonpos (hnp ys hys))) (by rw [sum_map_neg', h0, neg_zero])
      (List.mem_map.2 ⟨xs, hxs, rfl⟩)
    have h2 := (Finset.sum_eq_zero_iff_of_nonpos (hnp xs hxs)).1 (neg_eq_zero.1 h1) a (List.mem_toFinset.2 ha)
    have h3 := (mul_eq_zero.1 h2).resolve_left (freq_pos ha).ne'
    have h4 := div_pos (freq_pos ha) (hpos xs hxs a ha)
    have h5 : freq xs a / S a = 1 := Real.eq_one_of_pos_of_log_eq_zero h4 h3
    rwa [div_eq_one_iff_eq (hpos xs hxs a ha).ne'] at h5
  · intro h
    rw [List.map_congr_left (g := fun _ => (0:ℝ))]
    · simp
    · intro xs hxs
      refine Finset.sum_eq_zero fun a ha => ?_
      have ha' := List.mem_toFinset.1 ha
      rw [h xs hxs a ha', div_self (hpos xs hxs a ha').ne', Real.log_one, mul_zero]

end Verif.Spec
