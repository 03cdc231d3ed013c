import Verif.Lemmas.Zhang
import Verif.Props.Bias2

/-! # Properties C54, C55 : relations between bias-corrected estimators, ANSB -/

namespace Verif

open Spec

/-- **C54** On every sample Zhang's estimate is at most the Chao–Wang–Jost estimate, and the two are
equal when no symbol occurs exactly once. -/
theorem C54_zhang_le_chao_wang_jost (xs : List Int) (h : xs ≠ []) (b : Base) (hb : b.Std) :
    ∃ z c, (zhangH b).entropy (.arr1 xs) = .ok z ∧ (chaoWangJostH b).entropy (.arr1 xs) = .ok c ∧
      z ≤ c ∧ ((∀ a ∈ xs, cnt xs a ≠ 1) → z = c) := by
  have hz : zhang xs = ∑ a ∈ xs.toFinset, freq xs a * ∑ k ∈ Finset.Ico (cnt xs a) xs.length, 1 / (k : ℝ) := by
    rw [zhang_eq]
    refine Finset.sum_congr rfl fun a ha => ?_
    rw [zhangInner_eq _ _ (cnt_pos_iff.2 (List.mem_toFinset.1 ha)) List.countP_le_length]
  refine ⟨_, _, (C35_zhang xs h b hb).1, (C31_chao_wang_jost_well_defined xs h b hb).2.2.1, ?_, fun hs => ?_⟩
  · refine (div_le_div_iff_of_pos_right hb.ln_pos).2 ?_
    rw [hz, chaoWangJost]
    have := cwjCorr_nonneg h
    split_ifs <;> linarith
  · congr 1
    have : ¬ 0 < occurring xs 1 := by
      intro h0
      obtain ⟨a, ha, h1⟩ := occurring_pos_exists h0
      exact hs a ha h1
    rw [hz, chaoWangJost, if_neg (by tauto), add_zero]

example : (∀ a ∈ [0, 0, 1, (1 : Int)], cnt [0, 0, 1, (1 : Int)] a ≠ 1) ∧
    ¬ (∀ a ∈ [0, 0, (1 : Int)], cnt [0, 0, (1 : Int)] a ≠ 1) := by decide

/-- **C54** Zhang's double sum is the closed form `Σ p_a (H_{N−1} − H_{n_a−1})` of harmonic numbers. -/
theorem C54_zhang_harmonic (xs : List Int) (h : xs ≠ []) (b : Base) (hb : b.Valid) :
    (zhangH b).entropy (.arr1 xs) =
      .ok ((∑ a ∈ xs.toFinset, freq xs a * ∑ k ∈ Finset.Ico (cnt xs a) xs.length, 1 / (k : ℝ)) / b.ln) := by
  rw [HEst.entropy_arr1 _ h]
  show zhangSimple b (mkData xs) = _
  rw [zhangSimple_ok xs hb, zhang_eq]
  congr 2
  refine Finset.sum_congr rfl fun a ha => ?_
  rw [zhangInner_eq _ _ (cnt_pos_iff.2 (List.mem_toFinset.1 ha)) List.countP_le_length]

example := C54_zhang_harmonic [5, 7, 5] (by decide) (.num 2) (by norm_num [Base.Valid])

/-- **C55** ANSB with the observed support: the estimate exists exactly when some symbol repeats (fewer
symbols than samples), and then it is `(γ − log 2) + 2 log N − ψ(N − K)`. -/
theorem C55_ansb (xs : List Int) (h : xs ≠ []) (b : Base) (hb : b.Valid) :
    (¬ xs.Nodup → (ansbH none b).entropy (.arr1 xs) =
      .ok (ansb xs.length xs.toFinset.card / b.ln)) ∧
    (xs.Nodup → (ansbH none b).entropy (.arr1 xs) = .error .nonFinite) := by
  rw [HEst.entropy_arr1 _ h]
  have hN := length_pos_real h
  have hle := List.toFinset_card_le xs
  constructor
  · intro hd
    have hlt : xs.toFinset.card < xs.length := by
      refine lt_of_le_of_ne hle fun he => hd ?_
      rw [List.card_toFinset] at he
      rw [← List.dedup_eq_self]
      exact (List.dedup_sublist xs).eq_of_length he
    show ansbSimple none b (mkData xs) = _
    unfold ansbSimple
    simp only [mkData_K, mkData_N]
    rw [if_neg (by omega), Int.cast_natCast, npLog_ok hN,
      show ((xs.length : Int) - (xs.toFinset.card : Int)) = ((xs.length - xs.toFinset.card : ℕ) : Int) by omega,
      npDigamma_nat _ (by omega)]
    simp only [bind, Except.bind, scaleBase_ok hb, ansb]
  · intro hd
    show ansbSimple none b (mkData xs) = _
    unfold ansbSimple
    simp only [mkData_K, mkData_N]
    rw [if_pos (by rw [List.toFinset_card_of_nodup hd]; omega)]

/-- both halves occur: a sample with and one without a coincidence -/
example := And.intro ((C55_ansb [5, 7, 5] (by decide) (.num 2) (by norm_num [Base.Valid])).1 (by decide))
  ((C55_ansb [5, 7, 9] (by decide) (.num 2) (by norm_num [Base.Valid])).2 (by decide))

/-- **C55** ANSB with an explicit support size `K`: with `K < N` the value is the same formula; with
`K ≥ N` it is not a finite number. -/
theorem C55_ansb_given_support (xs : List Int) (h : xs ≠ []) (K : Nat) (b : Base) (hb : b.Valid) :
    (K < xs.length → (ansbH (some K) b).entropy (.arr1 xs) = .ok (ansb xs.length K / b.ln)) ∧
    (xs.length ≤ K → (ansbH (some K) b).entropy (.arr1 xs) = .error .nonFinite) := by
  rw [HEst.entropy_arr1 _ h]
  have hN := length_pos_real h
  constructor
  · intro hlt
    show ansbSimple (some K) b (mkData xs) = _
    have hne : ¬ ((xs.length : Int) - (K : Int) = 0) := by omega
    simp only [ansbSimple, mkData_N, hne, if_false, Int.cast_natCast, npLog_ok hN]
    rw [show ((xs.length : Int) - (K : Int)) = ((xs.length - K : ℕ) : Int) by omega,
      npDigamma_nat _ (by omega)]
    simp only [bind, Except.bind, scaleBase_ok hb, ansb]
  · intro hle
    show ansbSimple (some K) b (mkData xs) = _
    by_cases h0 : (xs.length : Int) - (K : Int) = 0
    · simp only [ansbSimple, mkData_N, h0, if_true]
    · have h1 : ¬ (0 < (xs.length : Int) - (K : Int)) := by omega
      simp only [ansbSimple, mkData_N, h0, if_false, Int.cast_natCast, npLog_ok hN, npDigamma, h1,
        bind, Except.bind]

example : ¬ [0, 1, (0 : Int)].Nodup ∧ [0, 1, (2 : Int)].Nodup := by decide

end Verif
