import Verif.Props.Percentile

/-!
# C99: the exact value of each percentile method

`s` is the list of test values in increasing order; the `(k+1)`-th smallest value is `s.getD k 0`.
-/

namespace Verif

variable {tie : Int → Bool}

/-- `s` lists `vals` in increasing order -/
def IncreasingOrder (vals s : List ℝ) : Prop := s.Perm vals ∧ s.Pairwise (fun a b => a ≤ b)

theorem px_sorted {vals s : List ℝ} (h : IncreasingOrder vals s) : sortedVals vals = s := by
  have sp : (sortedVals vals).Pairwise (fun a b : ℝ => a ≤ b) := by
    have := List.pairwise_mergeSort (le := fun a b : ℝ => decide (a ≤ b))
      (fun a b c h1 h2 => by simp only [decide_eq_true_eq] at *; exact le_trans h1 h2)
      (fun a b => by simp only [Bool.or_eq_true, decide_eq_true_eq]; exact le_total a b) vals
    exact this.imp (fun h => by simpa using h)
  exact List.Perm.eq_of_pairwise (fun a b _ _ h1 h2 => le_antisymm h1 h2) sp h.2 ((sortedVals_perm vals).trans h.1.symm)

/-- the plotting constants of the interpolating methods: the `k`-th smallest of `n` values (counted from 1) stands for the fraction
`(k − α)/(n + 1 − α − β)` -/
noncomputable def plottingConstants : List (String × ℝ × ℝ) :=
  [("interpolated_inverted_cdf", 0, 1), ("hazen", 1 / 2, 1 / 2), ("weibull", 0, 0), ("linear", 1, 1), ("median_unbiased", 1 / 3, 1 / 3),
   ("normal_unbiased", 3 / 8, 3 / 8)]

theorem px_at {method : String} {m : PctMethod} (hm : PctMethod.ofName method = some m) {vals s : List ℝ} (hs : IncreasingOrder vals s) {q t : ℝ}
    (h0 : 0 ≤ q) (h1 : q ≤ 100) {k : ℕ} (hk : k + 1 < vals.length) (t0 : 0 ≤ t) (t1 : t ≤ 1)
    (hp : m.position tie vals.length (q / 100) = k + t) :
    percentileBy tie method vals q = .ok (s.getD k 0 + t * (s.getD (k + 1) 0 - s.getD k 0)) := by
  have hk' : (k : ℝ) + 1 ≤ (vals.length : ℝ) - 1 := by
    have : ((k + 1 + 1 : ℕ) : ℝ) ≤ vals.length := by exact_mod_cast hk
    push_cast at this
    linarith
  rw [pct_eq hm vals h0 h1, hp, pctClip, min_eq_left (by linarith), max_eq_right (by positivity)]
  congr 1
  rcases t1.lt_or_eq with ht | rfl
  · have hf : ⌊(k : ℝ) + t⌋ = (k : Int) := by
      rw [Int.floor_eq_iff]
      push_cast
      exact ⟨by linarith, by linarith⟩
    unfold interp
    rw [hf, px_sorted hs, Int.toNat_natCast, hs.1.length_eq, min_eq_left (by omega)]
    ring
  · rw [show (k : ℝ) + 1 = ((k + 1 : ℕ) : ℝ) by push_cast; ring, pct_interp_int, px_sorted hs]
    ring

/-- **C99** The interpolating methods: the `(k+1)`-th smallest value is the percentile of the fraction `(k + 1 − α)/(n + 1 − α − β)`, and between two
neighbours the percentile is linear. -/
theorem C99_interpolating {vals s : List ℝ} (hs : IncreasingOrder vals s) (method : String) (α β : ℝ) (hm : (method, α, β) ∈ plottingConstants)
    (k : ℕ) (hk : k + 1 < vals.length) (t : ℝ) (t0 : 0 ≤ t) (t1 : t ≤ 1) :
    percentileBy tie method vals (100 * ((k + 1 + t - α) / (vals.length + 1 - α - β))) =
      .ok (s.getD k 0 + t * (s.getD (k + 1) 0 - s.getD k 0)) := by
  have hk' : (k : ℝ) + 2 ≤ vals.length := by
    have : ((k + 1 + 1 : ℕ) : ℝ) ≤ vals.length := by exact_mod_cast hk
    push_cast at this
    linarith
  have hk0 : (0 : ℝ) ≤ k := Nat.cast_nonneg k
  set n : ℝ := (vals.length : ℝ) with hn
  have key : ∀ m, PctMethod.ofName method = some m → 0 ≤ α → α ≤ 1 → 0 ≤ β → β ≤ 1 →
      (∀ p, m.position tie n p = p * (n + 1 - α - β) + α - 1) →
      percentileBy tie method vals (100 * ((k + 1 + t - α) / (n + 1 - α - β))) = .ok (s.getD k 0 + t * (s.getD (k + 1) 0 - s.getD k 0)) := by
    intro m hm a0 a1 b0 b1 hp
    have hd : 0 < n + 1 - α - β := by linarith
    have hq0 : 0 ≤ (k + 1 + t - α) / (n + 1 - α - β) := div_nonneg (by linarith) hd.le
    have hq1 : (k + 1 + t - α) / (n + 1 - α - β) ≤ 1 := (div_le_one hd).2 (by linarith)
    refine px_at hm hs (by linarith) (by linarith) hk t0 t1 ?_
    rw [mul_div_cancel_left₀ _ (by norm_num), ← hn, hp]
    field_simp
    ring
  simp only [plottingConstants, List.mem_cons, List.not_mem_nil, or_false, Prod.mk.injEq] at hm
  rcases hm with ⟨rfl, rfl, rfl⟩ | ⟨rfl, rfl, rfl⟩ | ⟨rfl, rfl, rfl⟩ | ⟨rfl, rfl, rfl⟩ | ⟨rfl, rfl, rfl⟩ | ⟨rfl, rfl, rfl⟩
  · exact key .interpolatedInvertedCdf rfl (by norm_num) (by norm_num) (by norm_num) (by norm_num) fun p => by
      simp only [PctMethod.position, virtualIndex]; ring
  · exact key .hazen rfl (by norm_num) (by norm_num) (by norm_num) (by norm_num) fun p => by
      simp only [PctMethod.position, virtualIndex]; ring
  · exact key .weibull rfl (by norm_num) (by norm_num) (by norm_num) (by norm_num) fun p => by
      simp only [PctMethod.position, virtualIndex]; ring
  · exact key .linear rfl (by norm_num) (by norm_num) (by norm_num) (by norm_num) fun p => by
      simp only [PctMethod.position]; ring
  · exact key .medianUnbiased rfl (by norm_num) (by norm_num) (by norm_num) (by norm_num) fun p => by
      simp only [PctMethod.position, virtualIndex]; ring
  · exact key .normalUnbiased rfl (by norm_num) (by norm_num) (by norm_num) (by norm_num) fun p => by
      simp only [PctMethod.position, virtualIndex]; ring

/-- **C99** The rounding methods, strictly between the fractions `k/(n − 1)` and `(k + 1)/(n − 1)`: `lower` takes the `(k+1)`-th smallest value, `higher`
the next one, `midpoint` their mean, `nearest` the one whose fraction is nearer (in the middle: the one with even `k` or `k + 1`). -/
theorem C99_rounding {vals s : List ℝ} (hs : IncreasingOrder vals s) (k : ℕ) (hk : k + 1 < vals.length) (t : ℝ) (t0 : 0 < t) (t1 : t < 1) :
    let q := 100 * ((k + t) / (vals.length - 1))
    percentileBy tie "lower" vals q = .ok (s.getD k 0) ∧
      percentileBy tie "higher" vals q = .ok (s.getD (k + 1) 0) ∧
      percentileBy tie "midpoint" vals q = .ok ((s.getD k 0 + s.getD (k + 1) 0) / 2) ∧
      (t < 1 / 2 ∨ t = 1 / 2 ∧ Even k → percentileBy tie "nearest" vals q = .ok (s.getD k 0)) ∧
      (1 / 2 < t ∨ t = 1 / 2 ∧ Odd k → percentileBy tie "nearest" vals q = .ok (s.getD (k + 1) 0)) := by
  intro q
  have hk' : (k : ℝ) + 2 ≤ vals.length := by
    have : ((k + 1 + 1 : ℕ) : ℝ) ≤ vals.length := by exact_mod_cast hk
    push_cast at this
    linarith
  have hk0 : (0 : ℝ) ≤ k := Nat.cast_nonneg k
  have hd : 0 < (vals.length : ℝ) - 1 := by linarith
  have hp : q / 100 * ((vals.length : ℝ) - 1) = k + t := by
    simp only [q]
    rw [mul_div_cancel_left₀ _ (by norm_num), div_mul_cancel₀ _ hd.ne']
  have hq0 : 0 ≤ q := by
    have : 0 ≤ (k + t) / ((vals.length : ℝ) - 1) := div_nonneg (by linarith) hd.le
    simp only [q]; linarith
  have hq1 : q ≤ 100 := by
    have : (k + t) / ((vals.length : ℝ) - 1) ≤ 1 := (div_le_one hd).2 (by linarith)
    simp only [q]; linarith
  have hf : ⌊(k : ℝ) + t⌋ = (k : Int) := by
    rw [Int.floor_eq_iff]; push_cast; exact ⟨by linarith, by linarith⟩
  have hc : ⌈(k : ℝ) + t⌉ = (k : Int) + 1 := by
    rw [Int.ceil_eq_iff]; push_cast; exact ⟨by linarith, by linarith⟩
  have lo : ∀ {method : String} {m : PctMethod}, PctMethod.ofName method = some m → m.position tie vals.length (q / 100) = k + 0 →
      percentileBy tie method vals q = .ok (s.getD k 0) := fun hm e => by
    rw [px_at hm hs hq0 hq1 hk le_rfl zero_le_one e, zero_mul, add_zero]
  have hi : ∀ {method : String} {m : PctMethod}, PctMethod.ofName method = some m → m.position tie vals.length (q / 100) = k + 1 →
      percentileBy tie method vals q = .ok (s.getD (k + 1) 0) := fun hm e => by
    rw [px_at hm hs hq0 hq1 hk zero_le_one le_rfl e]; congr 1; ring
  refine ⟨lo (m := .lower) rfl ?_, hi (m := .higher) rfl ?_, ?_, fun h => lo (m := .nearest) rfl ?_, fun h => hi (m := .nearest) rfl ?_⟩
  · simp only [PctMethod.position, hp, hf]; push_cast; ring
  · simp only [PctMethod.position, hp, hc]; push_cast; ring
  · rw [px_at (m := .midpoint) rfl hs hq0 hq1 hk (t := 1 / 2) (by norm_num) (by norm_num) (by
      simp only [PctMethod.position, hp, hf, hc]; push_cast; ring)]
    congr 1; ring
  · simp only [PctMethod.position, hp, npAround, hf]
    push_cast
    rw [add_sub_cancel_left]
    rcases h with h | ⟨rfl, h⟩
    · rw [if_pos h, add_zero]
    · rw [if_neg (lt_irrefl _), if_neg (lt_irrefl _), if_pos (by exact_mod_cast h), add_zero]
  · simp only [PctMethod.position, hp, npAround, hf]
    push_cast
    rw [add_sub_cancel_left]
    rcases h with h | ⟨rfl, h⟩
    · rw [if_neg (by linarith), if_pos h]
    · rw [if_neg (lt_irrefl _), if_neg (lt_irrefl _), if_neg (by rw [Int.not_even_iff_odd]; exact_mod_cast h)]

/-- **C99** At the fraction `k/(n − 1)` itself the rounding methods take the `(k+1)`-th smallest value. -/
theorem C99_rounding_exact {vals s : List ℝ} (hs : IncreasingOrder vals s) (k : ℕ) (hk : k + 1 < vals.length) (method : String)
    (hm : method ∈ ["lower", "higher", "midpoint", "nearest"]) :
    percentileBy tie method vals (100 * (k / (vals.length - 1))) = .ok (s.getD k 0) := by
  set q := 100 * ((k : ℝ) / (vals.length - 1)) with hq
  have hk' : (k : ℝ) + 2 ≤ vals.length := by
    have : ((k + 1 + 1 : ℕ) : ℝ) ≤ vals.length := by exact_mod_cast hk
    push_cast at this
    linarith
  have hk0 : (0 : ℝ) ≤ k := Nat.cast_nonneg k
  have hd : 0 < (vals.length : ℝ) - 1 := by linarith
  have hp : q / 100 * ((vals.length : ℝ) - 1) = k := by
    rw [hq, mul_div_cancel_left₀ _ (by norm_num), div_mul_cancel₀ _ hd.ne']
  have hq0 : 0 ≤ q := by
    have : 0 ≤ (k : ℝ) / ((vals.length : ℝ) - 1) := div_nonneg (by linarith) hd.le
    linarith
  have hq1 : q ≤ 100 := by
    have : (k : ℝ) / ((vals.length : ℝ) - 1) ≤ 1 := (div_le_one hd).2 (by linarith)
    linarith
  have lo : ∀ {m : PctMethod}, PctMethod.ofName method = some m → m.position tie vals.length (q / 100) = k →
      percentileBy tie method vals q = .ok (s.getD k 0) := fun hm e => by
    rw [px_at hm hs hq0 hq1 hk le_rfl zero_le_one (e.trans (add_zero _).symm), zero_mul, add_zero]
  simp only [List.mem_cons, List.not_mem_nil, or_false] at hm
  rcases hm with rfl | rfl | rfl | rfl
  · exact lo (m := .lower) rfl (by simp only [PctMethod.position, hp, Int.floor_natCast, Int.cast_natCast])
  · exact lo (m := .higher) rfl (by simp only [PctMethod.position, hp, Int.ceil_natCast, Int.cast_natCast])
  · exact lo (m := .midpoint) rfl (by simp only [PctMethod.position, hp, Int.floor_natCast, Int.ceil_natCast, Int.cast_natCast]; ring)
  · exact lo (m := .nearest) rfl (by simp only [PctMethod.position, hp, npAround, Int.floor_natCast, Int.cast_natCast, sub_self]; rw [if_pos (by norm_num)])

/-- **C99** `averaged_inverted_cdf` at the fraction `(k + 1)/n` is the mean of the `(k+1)`-th smallest value and the next one, and elsewhere `inverted_cdf`;
`closest_observation` takes the `(k+1)`-th smallest value when `n·q/100` is nearer to `k + 1` than to any other integer. -/
theorem C99_empirical {vals s : List ℝ} (hs : IncreasingOrder vals s) (k : ℕ) (hk : k + 1 < vals.length) :
    percentileBy tie "averaged_inverted_cdf" vals (100 * ((k + 1) / vals.length)) = .ok ((s.getD k 0 + s.getD (k + 1) 0) / 2) ∧
      (∀ t : ℝ, 0 < t → t < 1 → percentileBy tie "averaged_inverted_cdf" vals (100 * ((k + 1 + t) / vals.length)) = .ok (s.getD (k + 1) 0)) ∧
      (∀ t : ℝ, 0 < t → t ≤ 1 → percentileBy tie "inverted_cdf" vals (100 * ((k + 1 + t) / vals.length)) = .ok (s.getD (k + 1) 0)) ∧
      ∀ t : ℝ, |t| < 1 / 2 → percentileBy tie "closest_observation" vals (100 * ((k + 1 + t) / vals.length)) = .ok (s.getD k 0) := by
  have hk' : (k : ℝ) + 2 ≤ vals.length := by
    have : ((k + 1 + 1 : ℕ) : ℝ) ≤ vals.length := by exact_mod_cast hk
    push_cast at this
    linarith
  have hk0 : (0 : ℝ) ≤ k := Nat.cast_nonneg k
  have hd : 0 < (vals.length : ℝ) := by linarith
  have hp : ∀ x : ℝ, (vals.length : ℝ) * (100 * (x / vals.length) / 100) = x := fun x => by
    rw [mul_div_cancel_left₀ _ (by norm_num), mul_div_cancel₀ _ hd.ne']
  have hq0 : ∀ x : ℝ, 0 ≤ x → 0 ≤ 100 * (x / vals.length) := fun x hx => by positivity
  have hq1 : ∀ x : ℝ, x ≤ vals.length → 100 * (x / vals.length) ≤ 100 := fun x hx => by
    have := (div_le_one hd).2 hx; linarith
  refine ⟨?_, fun t t0 t1 => ?_, fun t t0 t1 => ?_, fun t ht => ?_⟩
  · rw [px_at (m := .averagedInvertedCdf) rfl hs (hq0 _ (by linarith)) (hq1 _ (by linarith)) hk (t := 1 / 2) (by norm_num) (by norm_num) ?_]
    · congr 1; ring
    · simp only [PctMethod.position, hp]
      rw [add_sub_cancel_right, if_pos (by rw [Int.floor_natCast, Int.cast_natCast])]
  · have hf : ⌊(k : ℝ) + t⌋ = (k : Int) := by
      rw [Int.floor_eq_iff]; push_cast; exact ⟨by linarith, by linarith⟩
    rw [px_at (m := .averagedInvertedCdf) rfl hs (hq0 _ (by linarith)) (hq1 _ (by linarith)) hk (t := 1) (by norm_num) le_rfl ?_]
    · congr 1; ring
    · simp only [PctMethod.position, hp]
      rw [show (k : ℝ) + 1 + t - 1 = k + t by ring, hf, if_neg (by push_cast; linarith)]
      push_cast; rfl
  · have hc : ⌈(k : ℝ) + t⌉ = (k : Int) + 1 := by
      rw [Int.ceil_eq_iff]; push_cast; exact ⟨by linarith, by linarith⟩
    rw [px_at (m := .invertedCdf) rfl hs (hq0 _ (by linarith)) (hq1 _ (by linarith)) hk (t := 1) (by norm_num) le_rfl ?_]
    · congr 1; ring
    · simp only [PctMethod.position, hp]
      rw [show (k : ℝ) + 1 + t - 1 = k + t by ring, hc]
      push_cast; rfl
  · rw [abs_lt] at ht
    have hf : ⌊(k : ℝ) + t - 1 / 2⌋ = (k : Int) - 1 := by
      rw [Int.floor_eq_iff]; push_cast; exact ⟨by linarith, by linarith⟩
    rw [px_at (m := .closestObservation) rfl hs (hq0 _ (by linarith)) (hq1 _ (by linarith)) hk (t := 0) le_rfl zero_le_one ?_]
    · congr 1; ring
    · simp only [PctMethod.position, hp]
      rw [show (k : ℝ) + 1 + t - 1 - 1 / 2 = k + t - 1 / 2 by ring, hf, if_neg (fun h => by have := h.1; push_cast at this; linarith)]
      push_cast; ring

theorem px_ex : IncreasingOrder [3, 1, 2, 5] [1, 2, 3, 5] :=
  ⟨(((List.Perm.swap 2 3 [5]).symm.cons 1).trans (List.Perm.refl _)).trans (List.Perm.swap 3 1 _) |>.trans (List.Perm.refl _), by norm_num⟩

example : percentileBy tie "weibull" [3, 1, 2, 5] (100 * ((((2 : ℕ) : ℝ) + 1 + 1 / 4 - 0) / ((4 : ℕ) + 1 - 0 - 0))) = .ok (3 + 1 / 4 * (5 - 3)) :=
  C99_interpolating px_ex "weibull" 0 0 (by simp [plottingConstants]) 2 (by simp) (1 / 4) (by norm_num) (by norm_num)
example := C99_rounding (tie := tie) px_ex 1 (by simp) (1 / 3) (by norm_num) (by norm_num)
example := C99_rounding_exact (tie := tie) px_ex 1 (by simp) "midpoint" (by simp)
example := C99_empirical (tie := tie) px_ex 1 (by simp)

end Verif
