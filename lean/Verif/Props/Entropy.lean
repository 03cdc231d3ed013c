import Verif.Lemmas.Entropy

/-! # Properties C03–C06, C09, C10 : plug-in (discrete) entropy -/

namespace Verif

open Spec

/-- **C03** The discrete entropy of a non-empty sample is the Shannon entropy of its empirical
distribution, in units of the base. -/
theorem C03_discrete_entropy_eq_shannon (xs : List Int) (h : xs ≠ []) (b : Base) (hb : b.Valid) :
    discreteEntropy [.arr1 xs] b = .ok (Spec.entropy xs / b.ln) :=
  discreteEntropy_arr1 h hb

example := C03_discrete_entropy_eq_shannon [5, 7, 5] (by decide) (.num 2) (by norm_num [Base.Valid])

/-- **C03** (error branches) an empty sample or more than two arguments: ValueError; no argument at all:
IndexError. -/
theorem C03_discrete_entropy_rejects (b : Base) (x y z : EInput) (rest : List EInput) :
    discreteEntropy [.arr1 []] b = .error .valueError ∧
    discreteEntropy [] b = .error .indexError ∧
    discreteEntropy (x :: y :: z :: rest) b = .error .valueError := by
  refine ⟨?_, rfl, rfl⟩
  simp [discreteEntropy, discreteHInit, entropyInit, reduceVar, fromData_nil, bind, Except.bind,
    List.mapM_cons]

example : ([1, 1, 2] : List Int) ≠ [] ∧ Base.Valid (.num 2) :=
  ⟨by decide, by simp [Base.Valid]⟩

/-- **C04** bounds: `0 ≤ H ≤ log_b K`, `H = 0` exactly for constant samples, `H = log_b K` exactly
when all observed symbols are equally frequent. -/
theorem C04_discrete_entropy_bounds (xs : List Int) (h : xs ≠ []) (b : Base) (hb : b.Std) :
    ∃ H, discreteEntropy [.arr1 xs] b = .ok H ∧
      0 ≤ H ∧ H ≤ Real.log (xs.toFinset.card) / b.ln ∧
      (H = 0 ↔ ∀ x ∈ xs, ∀ y ∈ xs, x = y) ∧
      (H = Real.log (xs.toFinset.card) / b.ln ↔ ∀ x ∈ xs, ∀ y ∈ xs, xs.count x = xs.count y) := by
  refine ⟨_, discreteEntropy_arr1 h hb.valid, div_nonneg (entropy_nonneg xs) hb.ln_pos.le,
    div_le_div_of_nonneg_right (entropy_le_log_card xs h) hb.ln_pos.le, ?_, ?_⟩
  · rw [div_eq_zero_iff, or_iff_left hb.ln_pos.ne', entropy_eq_zero_iff]
  · rw [div_left_inj' hb.ln_pos.ne', entropy_eq_log_card_iff xs h]
    simp only [cnt_eq_count]

example := C04_discrete_entropy_bounds [5, 7, 5] (by decide) (.num 2) (by norm_num [Base.Std])

/-- **C05** order of the sample is irrelevant. -/
theorem C05_discrete_entropy_perm (xs ys : List Int) (h : xs.Perm ys) (hne : xs ≠ []) (b : Base)
    (hb : b.Valid) : discreteEntropy [.arr1 xs] b = discreteEntropy [.arr1 ys] b := by
  have hy : ys ≠ [] := by rintro rfl; exact hne (List.Perm.eq_nil h)
  rw [discreteEntropy_arr1 hne hb, discreteEntropy_arr1 hy hb, entropy_perm h]

example := C05_discrete_entropy_perm [5, 7, 5] [7, 5, 5] (by decide) (by decide) (.num 2) (by norm_num [Base.Valid])

/-- **C05** injective renaming of the symbols is irrelevant. -/
theorem C05_discrete_entropy_relabel (xs : List Int) (hne : xs ≠ []) (f : Int → Int)
    (hf : ∀ x ∈ xs, ∀ y ∈ xs, f x = f y → x = y) (b : Base) (hb : b.Valid) :
    discreteEntropy [.arr1 (xs.map f)] b = discreteEntropy [.arr1 xs] b := by
  rw [discreteEntropy_arr1 (by simpa using hne) hb, discreteEntropy_arr1 hne hb]
  have := entropy_map_congr xs f id (fun u hu v hv => ⟨hf u hu v hv, fun h => by
    simp only [id] at h; rw [h]⟩)
  rw [this, List.map_id]

example : ([1, 2, 1] : List Int).Perm [2, 1, 1] := by decide
example : ∀ x ∈ ([1, 2, 1] : List Int), ∀ y ∈ ([1, 2, 1] : List Int),
    (fun v : Int => 5 - 2 * v) x = (fun v => 5 - 2 * v) y → x = y := by decide

/-- **C06** local values: one per sample point, `−log_b` of its relative frequency, and their mean is
the global value. -/
theorem C06_local_entropy (xs : List Int) (h : xs ≠ []) (b : Base) (hb : b.Valid) :
    ∃ l H, discreteEntropyLocal [.arr1 xs] b = .ok l ∧ discreteEntropy [.arr1 xs] b = .ok H ∧
      l = xs.map (fun x => - Real.log (Spec.freq xs x) / b.ln) ∧
      Spec.mean l = H ∧ (b.Std → ∀ v ∈ l, 0 ≤ v) := by
  refine ⟨xs.map (fun a => - (Real.log (freq xs a) / b.ln)), _, ?_, discreteEntropy_arr1 h hb, ?_, ?_, ?_⟩
  · simp only [discreteEntropyLocal, discreteHInit_arr1 h, bind, Except.bind, discreteLocal_ok hb]
  · exact List.map_congr_left fun a _ => by ring
  · rw [entropy_eq_mean, mean, mean, List.length_map, List.length_map, div_right_comm]
    congr 1
    rw [← sum_map_div']
    congr 1
    exact List.map_congr_left fun a _ => by ring
  · intro hs v hv
    obtain ⟨a, _, rfl⟩ := List.mem_map.1 hv
    have := Real.log_nonpos (freq_nonneg xs a) (freq_le_one xs a)
    have := div_nonpos_of_nonpos_of_nonneg this hs.ln_pos.le
    linarith

example := C06_local_entropy [5, 7, 5] (by decide) (.num 2) (by norm_num [Base.Valid])

/-- **C06** two data arguments (cross-entropy) have no local values. -/
theorem C06_cross_entropy_no_local (xs ys : List Int) (hx : xs ≠ []) (hy : ys ≠ []) (b : Base) :
    discreteEntropyLocal [.arr1 xs, .arr1 ys] b = .error .unsupportedOperation := by
  simp [discreteEntropyLocal, discreteHInit, entropyInit, reduceVar, fromData_ok hx, fromData_ok hy,
    bind, Except.bind, pure, Except.pure]

example := C06_cross_entropy_no_local [5, 7, 5] [7, 7, 9] (by decide) (by decide) .e

/-- **C09** base change for the discrete entropy: value in base `b` times `ln b` does not depend on
the base. -/
theorem C09_entropy_base_change (xs : List Int) (h : xs ≠ []) (b c : Base) (hb : b.Valid)
    (hc : c.Valid) (Hb Hc : ℝ) (h1 : discreteEntropy [.arr1 xs] b = .ok Hb)
    (h2 : discreteEntropy [.arr1 xs] c = .ok Hc) : Hb * b.ln = Hc * c.ln := by
  rw [discreteEntropy_arr1 h hb] at h1
  rw [discreteEntropy_arr1 h hc] at h2
  cases h1; cases h2
  rw [div_mul_cancel₀ _ hb.ln_ne, div_mul_cancel₀ _ hc.ln_ne]

example := C09_entropy_base_change [5, 7, 5] (by decide) (.num 2) (.num 10) (by norm_num [Base.Valid]) (by norm_num [Base.Valid]) _ _
  (C03_discrete_entropy_eq_shannon [5, 7, 5] (by decide) (.num 2) (by norm_num [Base.Valid]))
  (C03_discrete_entropy_eq_shannon [5, 7, 5] (by decide) (.num 10) (by norm_num [Base.Valid]))

/-- **C10** the log-base guard, for every base and positive argument: a valid base gives
`ln x / ln b`; a negative base is a ValueError; base 0 gives 0; base 1 is not finite. -/
theorem C10_log_base (x : ℝ) (hx : 0 < x) (b : ℝ) :
    (0 < b → b ≠ 1 → logBase (.num b) x = .ok (Real.log x / Real.log b)) ∧
    (logBase .e x = .ok (Real.log x)) ∧
    (b < 0 → logBase (.num b) x = .error .valueError) ∧
    (logBase (.num 0) x = .ok 0) ∧
    (logBase (.num 1) x = .error .nonFinite) := by
  refine ⟨fun h0 h1 => logBase_ok (b := .num b) ⟨h0, h1⟩ hx, by simp [logBase, npLog, hx], ?_, ?_, ?_⟩
  · intro h
    unfold logBase
    have h2 : b ≠ 2 := by linarith
    have h10 : b ≠ 10 := by linarith
    simp [h2, h10, h.ne, h]
  · simp [logBase]
  · simp [logBase]

example := C10_log_base 5 (by norm_num) 2

/-- **C10** a negative base is rejected whatever the argument. -/
theorem C10_log_base_negative (x b : ℝ) (h : b < 0) : logBase (.num b) x = .error .valueError := by
  unfold logBase
  have h2 : b ≠ 2 := by linarith
  have h10 : b ≠ 10 := by linarith
  simp [h2, h10, h.ne, h]

example := C10_log_base_negative 5 (-2) (by norm_num)

/-- **C10** a negative base makes the discrete entropy of every non-empty sample a ValueError. -/
theorem C10_entropy_negative_base (xs : List Int) (h : xs ≠ []) (b : ℝ) (hb : b < 0) :
    discreteEntropy [.arr1 xs] (.num b) = .error .valueError := by
  have hne : (mkData xs).probabilities ≠ [] := by
    rw [mkData_probabilities]; simpa using npUnique_ne_nil h
  simp only [discreteEntropy, discreteHInit_arr1 h, bind, Except.bind, entropyDispatch, discreteSimple]
  cases hp : (mkData xs).probabilities with
  | nil => exact absurd hp hne
  | cons p ps =>
    simp only [List.mapM_cons, bind, Except.bind, C10_log_base_negative p b hb]

example := C10_entropy_negative_base [5, 7, 5] (by decide) (-2) (by norm_num)

end Verif
