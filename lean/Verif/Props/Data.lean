import Verif.Lemmas.Entropy

/-! # Properties C01, C02 : discrete data containers -/

namespace Verif

open Spec

/-- **C01** For every non-empty sample of any totally ordered symbol type `from_data` succeeds;
the values are strictly increasing and are exactly the symbols that occur; every count is the number
of occurrences and is positive; the counts sum to `N`, the sample size; `K` is the number of distinct
symbols; probabilities are positive and sum to one. -/
theorem C01_from_data_summary {α : Type} [LinearOrder α] (xs : List α) (h : xs ≠ []) :
    ∃ d, DiscreteData.fromData xs = .ok d ∧
      d.uniq.Pairwise (· < ·) ∧
      (∀ a, a ∈ d.uniq ↔ a ∈ xs) ∧
      d.counts = d.uniq.map (fun a => (xs.count a : Int)) ∧
      (∀ c ∈ d.counts, 0 < c) ∧
      d.counts.sum = xs.length ∧
      d.N = xs.length ∧
      d.K = xs.toFinset.card ∧
      d.probabilities.length = d.K ∧
      (∀ p ∈ d.probabilities, 0 < p ∧ p ≤ 1) ∧
      d.probabilities.sum = 1 := by
  have hc : (mkData xs).counts = (npUnique xs).map (fun a => (xs.count a : Int)) := by
    simp only [mkData, npCounts_eq, List.map_map]
    refine List.map_congr_left fun a _ => ?_
    simp [cnt_eq_count]
  refine ⟨mkData xs, fromData_ok h, npUnique_strictSorted xs, fun a => mem_npUnique, hc, ?_, ?_,
    rfl, npUnique_length xs, ?_, ?_, ?_⟩
  · rw [hc]
    intro c hm
    obtain ⟨a, ha, rfl⟩ := List.mem_map.1 hm
    exact_mod_cast List.count_pos_iff.2 (mem_npUnique.1 ha)
  · simp only [mkData]
    rw [sum_map_ofNat, npCounts_sum]
  · rw [mkData_probabilities, List.length_map]; rfl
  · rw [mkData_probabilities]
    intro p hp
    obtain ⟨a, ha, rfl⟩ := List.mem_map.1 hp
    exact ⟨freq_pos (mem_npUnique.1 ha), freq_le_one _ _⟩
  · rw [mkData_probabilities, sum_npUnique, sum_freq h]

example := C01_from_data_summary ([5, 7, 5] : List Int) (by decide)

/-- **C01** (error branch) an empty sample is rejected with ValueError. -/
theorem C01_from_data_empty {α : Type} [LinearOrder α] :
    DiscreteData.fromData ([] : List α) = .error .valueError := fromData_nil

example : ([3, 1, 3, 2] : List Int) ≠ [] := by decide

/-- **C02** `from_counts` succeeds exactly when the counts array has an integer dtype, the same length
as the values, no negative entry and a non-zero sum. -/
theorem C02_from_counts_accepts_iff {α : Type} (uniq : List α) (counts : CountArr) :
    (∃ d, DiscreteData.fromCounts uniq counts = .ok d) ↔
      ∃ cs : List Int, counts = .ints cs ∧ uniq.length = cs.length ∧ (∀ c ∈ cs, 0 ≤ c) ∧
        cs.sum ≠ 0 := by
  unfold DiscreteData.fromCounts DiscreteData.postInit
  cases counts with
  | floats l =>
    constructor
    · rintro ⟨d, hd⟩
      split_ifs at hd
    · rintro ⟨cs, hcs, _⟩; cases hcs
  | ints l =>
    constructor
    · rintro ⟨d, hd⟩
      split_ifs at hd with h1 h2 h3
      refine ⟨l, rfl, by simpa [CountArr.len] using h1, ?_, by simpa [CountArr.sumZero] using h3⟩
      simpa [CountArr.anyNeg] using h2
    · rintro ⟨cs, hcs, h1, h2, h3⟩
      cases hcs
      have a1 : ¬ (uniq.length ≠ (CountArr.ints l).len) := by simpa [CountArr.len] using h1
      have a2 : ¬ ((CountArr.ints l).anyNeg = true) := by simpa [CountArr.anyNeg] using h2
      have a3 : ¬ ((CountArr.ints l).sumZero = true) := by simpa [CountArr.sumZero] using h3
      rw [if_neg a1, if_neg a2, if_neg a3]
      exact ⟨_, rfl⟩

/-- **C02** every rejection is a ValueError. -/
theorem C02_from_counts_rejects_valueError {α : Type} (uniq : List α) (counts : CountArr) (e : Exc)
    (h : DiscreteData.fromCounts uniq counts = .error e) : e = .valueError := by
  unfold DiscreteData.fromCounts DiscreteData.postInit at h
  cases counts <;> simp only at h <;> split_ifs at h <;> cases h <;> rfl

/-- fewer counts than values -/
example := C02_from_counts_rejects_valueError ([5, 7] : List Int) (.ints [1]) .valueError (by simp [DiscreteData.fromCounts, DiscreteData.postInit, CountArr.len])

/-- **C02** on success the stored fields are the arguments, `N` is the sum of the counts and `K` the
number of values; all counts are then non-negative and `N` is positive. -/
theorem C02_from_counts_fields {α : Type} (uniq : List α) (counts : CountArr) (d : DiscreteData α)
    (h : DiscreteData.fromCounts uniq counts = .ok d) :
    d.uniq = uniq ∧ counts = .ints d.counts ∧ d.N = d.counts.sum ∧ d.K = uniq.length ∧
      d.data = none ∧ 0 < d.N := by
  obtain ⟨cs, rfl, h1, h2, h3⟩ := (C02_from_counts_accepts_iff uniq counts).1 ⟨d, h⟩
  unfold DiscreteData.fromCounts DiscreteData.postInit at h
  split_ifs at h
  cases h
  refine ⟨rfl, rfl, rfl, rfl, rfl, ?_⟩
  have : 0 ≤ cs.sum := List.sum_nonneg h2
  show 0 < cs.sum
  omega

/-- the guard is satisfiable (a zero entry is allowed) -/
example : ∃ d, DiscreteData.fromCounts ["a", "b"] (.ints [0, 3]) = .ok d :=
  (C02_from_counts_accepts_iff _ _).2 ⟨[0, 3], rfl, rfl, by decide, by decide⟩

/-- **C02** the constructor with attached data additionally requires the counts to sum to the length
of the data. -/
theorem C02_constructor_with_data_iff {α : Type} (uniq : List α) (counts : CountArr) (data : List α) :
    (∃ d, DiscreteData.postInit uniq counts (some data) = .ok d) ↔
      ∃ cs : List Int, counts = .ints cs ∧ uniq.length = cs.length ∧ (∀ c ∈ cs, 0 ≤ c) ∧
        data ≠ [] ∧ cs.sum = data.length := by
  unfold DiscreteData.postInit
  cases counts with
  | floats l =>
    constructor
    · rintro ⟨d, hd⟩
      split_ifs at hd
    · rintro ⟨cs, hcs, _⟩; cases hcs
  | ints l =>
    constructor
    · rintro ⟨d, hd⟩
      simp only at hd
      split_ifs at hd with h1 h2 h3 h4 h5
      refine ⟨l, rfl, by simpa [CountArr.len] using h1, ?_, by simpa using h4, by simpa using h5⟩
      simpa [CountArr.anyNeg] using h2
    · rintro ⟨cs, hcs, h1, h2, h3, h4⟩
      cases hcs
      have hpos : 0 < data.length := List.length_pos_iff.2 h3
      have a1 : ¬ (uniq.length ≠ (CountArr.ints l).len) := by simpa [CountArr.len] using h1
      have a2 : ¬ ((CountArr.ints l).anyNeg = true) := by simpa [CountArr.anyNeg] using h2
      have a3 : ¬ ((CountArr.ints l).sumZero = true) := by
        simp only [CountArr.sumZero, decide_eq_true_eq]; omega
      have a4 : ¬ (data.length = 0) := by omega
      have a5 : ¬ (l.sum ≠ (data.length : Int)) := by simpa using h4
      rw [if_neg a1, if_neg a2, if_neg a3]
      simp only [if_neg a4, if_neg a5]
      exact ⟨_, rfl⟩

example : ([7, 7] : List Int) ≠ [] ∧ ([2] : List Int).sum = ([7, 7] : List Int).length := by decide

end Verif
