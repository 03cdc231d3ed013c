import Verif.Props.StatTest2
import Mathlib.Data.Finset.Max
import Mathlib.Data.Fintype.Basic

/-! # C78: what the reported p-value means under exchangeability

A permutation test treats the observed value and the `n` test values as exchangeable: under the null hypothesis each of the
`n + 1` values is equally likely to be the observed one.  The theorems count, for arbitrary values, for how many of the `n + 1`
choices the reported p-value is small. -/

namespace Verif

open Finset

/-- number of entries of `vs` above its `i`-th entry -/
noncomputable def numAbove (vs : List ℝ) (i : Fin vs.length) : Nat :=
  open Classical in (univ.filter (fun k : Fin vs.length => vs.get i < vs.get k)).card

theorem countP_eq_card_get (vs : List ℝ) (p : ℝ → Bool) :
    vs.countP p = (univ.filter (fun k : Fin vs.length => p (vs.get k) = true)).card := by
  conv_lhs => rw [← List.map_get_finRange vs]
  rw [List.countP_map, List.countP_eq_length_filter,
    ← List.toFinset_card_of_nodup ((List.nodup_finRange _).filter _)]
  congr 1
  ext k
  simp

theorem statResult_leave_one_out (vs : List ℝ) (h3 : 3 ≤ vs.length) (i : Fin vs.length) (m : String) (r : StatRes)
    (hr : statResult (vs.get i) (vs.eraseIdx i) ((vs.length : Int) - 1) m = .ok r) :
    r.pValue = (numAbove vs i : ℝ) / ((vs.length : ℝ) - 1) := by
  classical
  have hlen : (vs.eraseIdx i).length = vs.length - 1 := List.length_eraseIdx_of_lt i.2
  obtain ⟨-, hp, -⟩ := statResult_ok hr
  rw [hp]
  unfold fractionAbove
  rw [hlen, Nat.cast_sub (by omega), Nat.cast_one]
  congr 2
  rw [← List.countP_eq_length_filter]
  have hperm := List.getElem_cons_eraseIdx_perm i.2
  have hc := hperm.countP_eq (fun v => decide (vs.get i < v))
  rw [List.countP_cons] at hc
  rw [if_neg (by simp)] at hc
  rw [show List.countP (fun v => decide (vs.get i < v)) (vs.eraseIdx i) = List.countP (fun v => decide (vs.get i < v)) vs by omega]
  rw [countP_eq_card_get]
  unfold numAbove
  simp

/-- how many of the values have at most `j` values above them -/
theorem card_numAbove_le (vs : List ℝ) (j : Nat) (hj : j < vs.length) :
    j + 1 ≤ (univ.filter (fun i : Fin vs.length => numAbove vs i ≤ j)).card := by
  classical
  set B := univ.filter (fun i : Fin vs.length => ¬ numAbove vs i ≤ j) with hB
  by_cases hne : B.Nonempty
  · obtain ⟨i, hi, hmax⟩ := B.exists_max_image (fun k => vs.get k) hne
    have h1 : j + 1 ≤ numAbove vs i := by
      have := (mem_filter.1 hi).2; omega
    refine h1.trans (card_le_card ?_)
    intro k hk
    rw [mem_filter] at hk ⊢
    refine ⟨mem_univ _, ?_⟩
    by_contra hcon
    have := hmax k (by rw [hB, mem_filter]; exact ⟨mem_univ _, hcon⟩)
    have := hk.2
    linarith
  · rw [not_nonempty_iff_eq_empty, hB, filter_eq_empty_iff] at hne
    rw [filter_true_of_mem (fun i _ => not_not.1 (hne (mem_univ i))), card_univ, Fintype.card_fin]
    omega

theorem card_numAbove_eq (vs : List ℝ) (hnd : vs.Nodup) (j : Nat) (hj : j < vs.length) :
    (univ.filter (fun i : Fin vs.length => numAbove vs i ≤ j)).card = j + 1 := by
  classical
  refine le_antisymm ?_ (card_numAbove_le vs j hj)
  set A := univ.filter (fun i : Fin vs.length => numAbove vs i ≤ j) with hA
  by_cases hne : A.Nonempty
  · obtain ⟨i, hi, hmin⟩ := A.exists_min_image (fun k => vs.get k) hne
    have h1 : numAbove vs i ≤ j := (mem_filter.1 hi).2
    have h2 : (A.erase i).card ≤ numAbove vs i := by
      apply card_le_card
      intro k hk
      rw [mem_erase] at hk
      rw [mem_filter]
      refine ⟨mem_univ _, lt_of_le_of_ne (hmin k hk.2) ?_⟩
      intro heq
      exact hk.1 ((List.nodup_iff_injective_get.1 hnd) heq.symm)
    rw [card_erase_of_mem hi] at h2
    omega
  · rw [not_nonempty_iff_eq_empty] at hne
    rw [hne]; simp

/-- **C78** Let the observed value and the `n ≥ 2` test values be any `n + 1` numbers, and let `p i` be the p-value reported when the
`i`-th number is the observed one and the others are the test values.  For every `j ≤ n` at least `j + 1` of the `n + 1` choices have a
p-value of at most `j/n`; if the numbers are distinct, exactly `j + 1`.  So under exchangeability the p-value is at most `j/n` with
probability at least `(j+1)/(n+1)`, which for `j < n` is more than the nominal level `j/n`: the test rejects too often. -/
theorem C78_level (vs : List ℝ) (m : String) (p : Fin vs.length → ℝ) (h3 : 3 ≤ vs.length)
    (hp : ∀ i, ∃ r, statResult (vs.get i) (vs.eraseIdx i) ((vs.length : Int) - 1) m = .ok r ∧ r.pValue = p i)
    (j : Nat) (hj : j < vs.length) :
    j + 1 ≤ (open Classical in (univ.filter (fun i => p i ≤ (j : ℝ) / ((vs.length : ℝ) - 1))).card) ∧
    (vs.Nodup → (open Classical in (univ.filter (fun i => p i ≤ (j : ℝ) / ((vs.length : ℝ) - 1))).card) = j + 1) ∧
    (j < vs.length - 1 → (j : ℝ) / ((vs.length : ℝ) - 1) < ((j : ℝ) + 1) / vs.length) := by
  classical
  have hpos : (0 : ℝ) < (vs.length : ℝ) - 1 := by
    have : (3 : ℝ) ≤ vs.length := by exact_mod_cast h3
    linarith
  have hiff : ∀ i, p i ≤ (j : ℝ) / ((vs.length : ℝ) - 1) ↔ numAbove vs i ≤ j := by
    intro i
    obtain ⟨r, hr, hri⟩ := hp i
    rw [← hri, statResult_leave_one_out vs h3 i m r hr, div_le_div_iff_of_pos_right hpos, Nat.cast_le]
  have heq : (univ.filter (fun i => p i ≤ (j : ℝ) / ((vs.length : ℝ) - 1))) =
      univ.filter (fun i : Fin vs.length => numAbove vs i ≤ j) := by
    ext i; simp only [mem_filter, mem_univ, true_and]; exact hiff i
  refine ⟨?_, ?_, ?_⟩
  · rw [heq]; exact card_numAbove_le vs j hj
  · intro hnd; rw [heq]; exact card_numAbove_eq vs hnd j hj
  · intro hjl
    have hL : (0 : ℝ) < vs.length := by linarith
    rw [div_lt_div_iff₀ hpos hL]
    have : (j : ℝ) < (vs.length : ℝ) - 1 := by
      have : (j : ℝ) + 1 < vs.length := by exact_mod_cast (by omega : j + 1 < vs.length)
      linarith
    nlinarith

/-- **C78** With distinct values the usual correction `(n·p + 1)/(n + 1)` of the reported p-value would keep every level `α ≥ 0`. -/
theorem C78_corrected_level (vs : List ℝ) (m : String) (p : Fin vs.length → ℝ) (h3 : 3 ≤ vs.length) (hnd : vs.Nodup)
    (hp : ∀ i, ∃ r, statResult (vs.get i) (vs.eraseIdx i) ((vs.length : Int) - 1) m = .ok r ∧ r.pValue = p i)
    (α : ℝ) (hα : 0 ≤ α) :
    ((open Classical in (univ.filter (fun i => ((vs.length - 1 : ℝ) * p i + 1) / vs.length ≤ α)).card) : ℝ) ≤ α * vs.length := by
  classical
  have hpos : (0 : ℝ) < (vs.length : ℝ) - 1 := by
    have : (3 : ℝ) ≤ vs.length := by exact_mod_cast h3
    linarith
  have hL : (0 : ℝ) < vs.length := by linarith
  have hiff : ∀ i, ((vs.length - 1 : ℝ) * p i + 1) / vs.length ≤ α ↔ (numAbove vs i : ℝ) + 1 ≤ α * vs.length := by
    intro i
    obtain ⟨r, hr, hri⟩ := hp i
    rw [← hri, statResult_leave_one_out vs h3 i m r hr, mul_div_cancel₀ _ hpos.ne', div_le_iff₀ hL]
  have heq : (univ.filter (fun i => ((vs.length - 1 : ℝ) * p i + 1) / vs.length ≤ α)) =
      univ.filter (fun i : Fin vs.length => (numAbove vs i : ℝ) + 1 ≤ α * vs.length) := by
    ext i; simp only [mem_filter, mem_univ, true_and]; exact hiff i
  rw [heq]
  by_cases hbig : (vs.length : ℝ) ≤ α * vs.length
  · refine le_trans ?_ hbig
    exact_mod_cast (card_filter_le _ _).trans (by simp)
  by_cases h1 : 1 ≤ α * vs.length
  · set j := ⌊α * vs.length⌋₊ - 1 with hj
    have hf1 : 1 ≤ ⌊α * vs.length⌋₊ := (Nat.one_le_floor_iff _).2 h1
    have hfl : (⌊α * vs.length⌋₊ : ℝ) ≤ α * vs.length := Nat.floor_le (by linarith)
    have hjl : j < vs.length := by
      have : (⌊α * vs.length⌋₊ : ℝ) < vs.length := lt_of_le_of_lt hfl (not_le.1 hbig)
      have : ⌊α * vs.length⌋₊ < vs.length := by exact_mod_cast this
      omega
    have hsub : univ.filter (fun i : Fin vs.length => (numAbove vs i : ℝ) + 1 ≤ α * vs.length) ⊆
        univ.filter (fun i : Fin vs.length => numAbove vs i ≤ j) := by
      intro i hi
      rw [mem_filter] at hi ⊢
      refine ⟨hi.1, ?_⟩
      have h2 : ((numAbove vs i + 1 : Nat) : ℝ) ≤ α * vs.length := by push_cast; exact hi.2
      have := Nat.le_floor h2
      omega
    have hcard := (card_le_card hsub).trans (card_numAbove_eq vs hnd j hjl).le
    have : ((univ.filter (fun i : Fin vs.length => (numAbove vs i : ℝ) + 1 ≤ α * vs.length)).card : ℝ) ≤ ⌊α * vs.length⌋₊ := by
      exact Nat.cast_le.2 (by omega)
    linarith
  · rw [filter_false_of_mem]
    · simp; positivity
    · intro i _ hcon
      have : (0 : ℝ) ≤ numAbove vs i := Nat.cast_nonneg _
      linarith

private theorem fourValues : ∀ i : Fin ([1, 2, 3, 4] : List ℝ).length, ∃ r,
    statResult (([1, 2, 3, 4] : List ℝ).get i) (([1, 2, 3, 4] : List ℝ).eraseIdx i) ((([1, 2, 3, 4] : List ℝ).length : Int) - 1)
      "permutation_test" = .ok r := by
  intro i
  refine (C42_needs_two_values _ _ _ _).2 ?_
  rw [List.length_eraseIdx_of_lt i.2]
  simp

example := C78_level [1, 2, 3, 4] "permutation_test" (fun i => (fourValues i).choose.pValue) (by simp)
  (fun i => ⟨_, (fourValues i).choose_spec, rfl⟩) 2 (by simp)

example := C78_corrected_level [1, 2, 3, 4] "permutation_test" (fun i => (fourValues i).choose.pValue) (by simp) (by norm_num)
  (fun i => ⟨_, (fourValues i).choose_spec, rfl⟩) (1 / 4) (by norm_num)

/-- **C78** Ties count as evidence against the null hypothesis: if all values agree (a source that the test does not randomise, a constant
series), every choice of the observed one has p-value 0. -/
theorem C78_ties_are_significant (x : ℝ) (n : Nat) (hn : 2 ≤ n) (k : Int) (m : String) :
    ∃ r, statResult x (List.replicate n x) k m = .ok r ∧ r.pValue = 0 := by
  obtain ⟨r, hr⟩ := (C42_needs_two_values x (List.replicate n x) k m).2 (by simpa using hn)
  refine ⟨r, hr, (C42_p_value_extremes x _ k m r hr).1.2 ?_⟩
  intro v hv
  rw [List.eq_of_mem_replicate hv]

/-- the hypotheses of C78 are met: four distinct numbers -/
example : ∃ p : Fin ([1, 2, 3, 4] : List ℝ).length → ℝ, ([1, 2, 3, 4] : List ℝ).Nodup ∧ ∀ i, ∃ r,
    statResult (([1, 2, 3, 4] : List ℝ).get i) (([1, 2, 3, 4] : List ℝ).eraseIdx i) ((([1, 2, 3, 4] : List ℝ).length : Int) - 1)
      "permutation_test" = .ok r ∧ r.pValue = p i := by
  have hex : ∀ i : Fin ([1, 2, 3, 4] : List ℝ).length, ∃ r,
      statResult (([1, 2, 3, 4] : List ℝ).get i) (([1, 2, 3, 4] : List ℝ).eraseIdx i) ((([1, 2, 3, 4] : List ℝ).length : Int) - 1)
      "permutation_test" = .ok r := by
    intro i
    refine (C42_needs_two_values _ _ _ _).2 ?_
    rw [List.length_eraseIdx_of_lt i.2]
    simp
  refine ⟨fun i => (hex i).choose.pValue, by norm_num, fun i => ⟨_, (hex i).choose_spec, rfl⟩⟩

end Verif
