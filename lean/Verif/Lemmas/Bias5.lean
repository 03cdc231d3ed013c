import Verif.Lemmas.Bias4

/-! # Shrinkage and Bayes: connection of the code's quantities with the specification -/

namespace Verif

open Spec

/-- a strictly increasing list with the same elements is `numpy.unique` -/
theorem npUnique_eq {α : Type*} [LinearOrder α] {xs l : List α} (hs : l.Pairwise (· < ·))
    (hm : ∀ a, a ∈ l ↔ a ∈ xs) : npUnique xs = l := by
  refine List.Perm.eq_of_pairwise (le := (· < ·)) (fun a b _ _ h1 h2 => absurd h1 (lt_asymm h2))
    (npUnique_strictSorted xs) hs ?_
  refine (List.perm_ext_iff_of_nodup (npUnique_nodup xs) (hs.imp ne_of_lt)).2 fun a => ?_
  rw [mem_npUnique, hm]

section
variable {α : Type} [LinearOrder α]

theorem lambdaOf_eq {xs : List α} (h : xs ≠ []) : lambdaOf xs = shrinkWeight xs := by
  have hN := List.length_pos_iff.2 h
  have hNN := mkData_N xs
  unfold lambdaOf shrinkWeight
  simp only
  by_cases h1 : xs.length ≤ 1
  · rw [if_pos (show (mkData xs).N = 0 ∨ (mkData xs).N = 1 by omega), if_pos (Or.inl h1)]
  · have h1' : (1:ℝ) < xs.length := by exact_mod_cast (by omega : 1 < xs.length)
    rw [if_neg (show ¬ ((mkData xs).N = 0 ∨ (mkData xs).N = 1) by omega), hNN]
    unfold shrinkLambda
    simp only [freqs, List.map_map]
    have e1 : ((npUnique xs).map ((fun p => (p - 1 / (xs.toFinset.card : ℝ)) ^ 2) ∘ freq xs)).sum =
        ∑ a ∈ xs.toFinset, (1 / (xs.toFinset.card : ℝ) - freq xs a) ^ 2 := by
      rw [sum_npUnique']
      exact Finset.sum_congr rfl fun a _ => by simp only [Function.comp]; ring
    have e2 : ((npUnique xs).map ((fun p => p * (1 - p) / (((xs.length : ℕ) : ℤ) - 1 : ℝ)) ∘ freq xs)).sum =
        (1 - ∑ a ∈ xs.toFinset, freq xs a ^ 2) / ((xs.length : ℝ) - 1) := by
      have e3 : (1 - ∑ a ∈ xs.toFinset, freq xs a ^ 2) = ∑ a ∈ xs.toFinset, freq xs a * (1 - freq xs a) := by
        have : ∑ a ∈ xs.toFinset, freq xs a * (1 - freq xs a) =
            ∑ a ∈ xs.toFinset, (freq xs a - freq xs a ^ 2) := Finset.sum_congr rfl fun a _ => by ring
        rw [this, Finset.sum_sub_distrib, sum_freq h]
      rw [sum_npUnique', e3, Finset.sum_div]
      exact Finset.sum_congr rfl fun a _ => by simp only [Function.comp, Int.cast_natCast]
    rw [e1, e2]
    set msp := ∑ a ∈ xs.toFinset, (1 / (xs.toFinset.card : ℝ) - freq xs a) ^ 2
    by_cases h0 : msp = 0
    · rw [if_pos h0, if_pos (Or.inr h0)]
    · rw [if_neg h0, if_neg (show ¬ (xs.length ≤ 1 ∨ msp = 0) by tauto), div_div]
      set q := (1 - ∑ a ∈ xs.toFinset, freq xs a ^ 2) / (((xs.length : ℝ) - 1) * msp)
      split_ifs with h3 h4
      · rw [min_eq_left h3.le]; simp
      · rw [min_eq_right (by linarith), max_eq_left h4.le]
      · rw [min_eq_right (by linarith), max_eq_right (by linarith)]

theorem shrinkWeight_mem (xs : List α) : 0 ≤ shrinkWeight xs ∧ shrinkWeight xs ≤ 1 := by
  unfold shrinkWeight
  simp only
  split_ifs
  · norm_num
  · exact ⟨le_max_left _ _, max_le (by norm_num) (min_le_left _ _)⟩

theorem shrinkProbs_spec {xs : List α} (h : xs ≠ []) :
    shrinkProbs (mkData xs) = (npUnique xs).map (shrinkProb xs) := by
  rw [shrinkProbs_eq, freqs, List.map_map, lambdaOf_eq h]; rfl

theorem entropyOf_shrink {xs : List α} (h : xs ≠ []) :
    entropyOf (shrinkProbs (mkData xs)) = shrink xs := by
  rw [shrinkProbs_spec h, entropyOf, List.map_map, sum_npUnique']; rfl

theorem bayesP_spec (xs : List α) (K a : ℝ) : bayesP xs K a = (npUnique xs).map (bayesProb xs K a) := rfl

theorem entropyOf_bayes (xs : List α) (K a : ℝ) : entropyOf (bayesP xs K a) = bayes xs K a := by
  rw [bayesP_spec, entropyOf, List.map_map, sum_npUnique']; rfl

theorem bayesSimple_ok {xs : List α} (h : xs ≠ []) (alpha : AlphaArg) (kp : Option Nat) {a : ℝ}
    (ha : getAlpha alpha (kEff xs kp) xs.length = .ok a) (h0 : 0 ≤ a) {b : Base} (hb : b.Valid) :
    bayesSimple alpha kp b (mkData xs) = .ok (bayes xs (kEff xs kp) a / b.ln) := by
  unfold bayesSimple
  rw [bayesProbs_eq h alpha kp ha h0, ← entropyOf_bayes]
  exact sum_plog_ok (bayesP_pos h (kEff_nonneg xs kp) h0) hb

end

end Verif
