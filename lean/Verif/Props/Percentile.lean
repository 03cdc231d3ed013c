import Verif.Model.Percentile
import Verif.Props.StatTest2

/-!
# C99: percentiles and confidence intervals with every `method`
-/

namespace Verif

variable {tie : Int → Bool}

/-- the names of the methods `numpy.percentile` documents -/
def PercentileNames : List String :=
  ["inverted_cdf", "averaged_inverted_cdf", "closest_observation", "interpolated_inverted_cdf", "hazen", "weibull", "linear",
   "median_unbiased", "normal_unbiased", "lower", "higher", "midpoint", "nearest"]

theorem pct_name (s : String) : s ∈ PercentileNames ↔ ∃ m, PctMethod.ofName s = some m := by
  constructor
  · intro h
    simp only [PercentileNames, List.mem_cons, List.not_mem_nil, or_false] at h
    rcases h with rfl | rfl | rfl | rfl | rfl | rfl | rfl | rfl | rfl | rfl | rfl | rfl | rfl <;> exact ⟨_, rfl⟩
  · rintro ⟨m, h⟩
    by_contra hs
    simp only [PercentileNames, List.mem_cons, List.not_mem_nil, or_false, not_or] at hs
    obtain ⟨a1, a2, a3, a4, a5, a6, a7, a8, a9, a10, a11, a12, a13⟩ := hs
    simp [PctMethod.ofName, List.lookup, beq_eq_false_iff_ne.2 a1, beq_eq_false_iff_ne.2 a2, beq_eq_false_iff_ne.2 a3, beq_eq_false_iff_ne.2 a4,
      beq_eq_false_iff_ne.2 a5, beq_eq_false_iff_ne.2 a6, beq_eq_false_iff_ne.2 a7, beq_eq_false_iff_ne.2 a8, beq_eq_false_iff_ne.2 a9,
      beq_eq_false_iff_ne.2 a10, beq_eq_false_iff_ne.2 a11, beq_eq_false_iff_ne.2 a12, beq_eq_false_iff_ne.2 a13] at h

theorem pct_floor_mono {x y : ℝ} (h : x ≤ y) : ((⌊x⌋ : Int) : ℝ) ≤ ⌊y⌋ := by exact_mod_cast Int.floor_le_floor h

theorem pct_around_mem (x : ℝ) : npAround x = ⌊x⌋ ∨ npAround x = ⌊x⌋ + 1 := by
  unfold npAround
  split_ifs <;> simp

theorem pct_around_mono {x y : ℝ} (h : x ≤ y) : npAround x ≤ npAround y := by
  rcases (Int.floor_le_floor h).lt_or_eq with hlt | heq
  · have : ((⌊x⌋ + 1 : Int) : ℝ) ≤ ⌊y⌋ := by exact_mod_cast hlt
    push_cast at this
    rcases pct_around_mem x with h1 | h1 <;> rcases pct_around_mem y with h2 | h2 <;> rw [h1, h2] <;> linarith
  · unfold npAround
    rw [← heq]
    split_ifs <;> linarith

/-- a rule that is the floor plus a step at ties -/
theorem pct_tie_mono {x y : ℝ} (h : x ≤ y) {cx cy : Prop} [Decidable cx] [Decidable cy] (hx : cx → x = ⌊x⌋) (hy : cy → y = ⌊y⌋) (hc : x = y → (cx ↔ cy)) :
    (if cx then (⌊x⌋ : ℝ) else ⌊x⌋ + 1) ≤ if cy then (⌊y⌋ : ℝ) else ⌊y⌋ + 1 := by
  have hm := pct_floor_mono h
  by_cases h2 : cy
  · rw [if_pos h2]
    by_cases h1 : cx
    · rwa [if_pos h1]
    · rw [if_neg h1]
      rcases (Int.floor_le_floor h).lt_or_eq with hlt | heq
      · exact_mod_cast hlt
      · exfalso
        have e1 : x = y := le_antisymm h (by rw [hy h2, ← heq]; exact Int.floor_le x)
        exact h1 ((hc e1).2 h2)
  · rw [if_neg h2]
    split_ifs <;> linarith

theorem pct_position_mono (m : PctMethod) {n p p' : ℝ} (hn : 1 ≤ n) (h : p ≤ p') : m.position tie n p ≤ m.position tie n p' := by
  have hnp : n * p ≤ n * p' := mul_le_mul_of_nonneg_left h (by linarith)
  have hl : p * (n - 1) ≤ p' * (n - 1) := mul_le_mul_of_nonneg_right h (by linarith)
  have hf := pct_floor_mono hl
  have hc : ((⌈p * (n - 1)⌉ : Int) : ℝ) ≤ ⌈p' * (n - 1)⌉ := by exact_mod_cast Int.ceil_le_ceil hl
  cases m with
  | invertedCdf =>
    simp only [PctMethod.position]
    exact_mod_cast Int.ceil_le_ceil (by linarith)
  | averagedInvertedCdf =>
    simp only [PctMethod.position]
    have hm := pct_floor_mono (show n * p - 1 ≤ n * p' - 1 by linarith)
    have h1 := Int.lt_floor_add_one (n * p - 1)
    have h2 := Int.floor_le (n * p' - 1)
    rcases (Int.floor_le_floor (show n * p - 1 ≤ n * p' - 1 by linarith)).lt_or_eq with hlt | heq
    · have : ((⌊n * p - 1⌋ + 1 : Int) : ℝ) ≤ ⌊n * p' - 1⌋ := by exact_mod_cast hlt
      push_cast at this
      split_ifs <;> linarith
    · have heq' : ((⌊n * p - 1⌋ : Int) : ℝ) = ⌊n * p' - 1⌋ := by exact_mod_cast heq
      have h3 := Int.floor_le (n * p - 1)
      split_ifs with c1 c2 c2
      · linarith
      · linarith
      · exact absurd (show n * p - 1 = ⌊n * p - 1⌋ by linarith) c1
      · linarith
  | closestObservation =>
    simp only [PctMethod.position]
    exact pct_tie_mono (by linarith) (fun h => h.1) (fun h => h.1) (fun e => by rw [e])
  | interpolatedInvertedCdf => simp only [PctMethod.position, virtualIndex]; linarith
  | hazen => simp only [PctMethod.position, virtualIndex]; linarith
  | weibull => simp only [PctMethod.position, virtualIndex]; linarith
  | linear => exact hl
  | medianUnbiased => simp only [PctMethod.position, virtualIndex]; linarith
  | normalUnbiased => simp only [PctMethod.position, virtualIndex]; linarith
  | lower => exact hf
  | higher => exact hc
  | midpoint => simp only [PctMethod.position]; linarith
  | nearest => exact pct_around_mono hl

/-- clipped position -/
noncomputable def pctClip (n v : ℝ) : ℝ := max 0 (min v (n - 1))

theorem pct_eq {method : String} {m : PctMethod} (hm : PctMethod.ofName method = some m) (vals : List ℝ) {q : ℝ} (h0 : 0 ≤ q) (h1 : q ≤ 100) :
    percentileBy tie method vals q = .ok (interp vals (pctClip vals.length (m.position tie vals.length (q / 100)))) := by
  unfold percentileBy
  rw [if_neg (by push Not; exact ⟨h0, h1⟩), hm]
  show _ = Except.ok (interp vals _)
  unfold interp pctClip
  rw [show vals.mergeSort (fun a b => decide (a ≤ b)) = sortedVals vals from rfl]
  simp only [sortedVals_length]

theorem pct_clip_mono {n v w : ℝ} (h : v ≤ w) : pctClip n v ≤ pctClip n w := max_le_max le_rfl (min_le_min h le_rfl)
theorem pct_clip_nonneg (n v : ℝ) : 0 ≤ pctClip n v := le_max_left _ _
theorem pct_clip_le {n : ℝ} (hn : 1 ≤ n) (v : ℝ) : pctClip n v ≤ n - 1 := max_le (by linarith) (min_le_right _ _)
theorem pct_clip_low {n v : ℝ} (h : v ≤ 0) : pctClip n v = 0 := max_eq_left ((min_le_left _ _).trans h)
theorem pct_clip_high {n v : ℝ} (hn : 1 ≤ n) (h : n - 1 ≤ v) : pctClip n v = n - 1 := by
  unfold pctClip
  rw [min_eq_right h, max_eq_right (by linarith)]

theorem pct_position_zero (m : PctMethod) {n : ℝ} : m.position tie n 0 ≤ 0 := by
  have f1 : ⌊(-1 : ℝ)⌋ = -1 := by rw [show (-1 : ℝ) = ((-1 : Int) : ℝ) by norm_num, Int.floor_intCast]
  have f2 : ⌊(-1 - 1 / 2 : ℝ)⌋ = -2 := by rw [Int.floor_eq_iff]; norm_num
  have c1 : ⌈(-1 : ℝ)⌉ = -1 := by rw [show (-1 : ℝ) = ((-1 : Int) : ℝ) by norm_num, Int.ceil_intCast]
  cases m <;> simp only [PctMethod.position, virtualIndex, npAround, mul_zero, zero_mul, zero_sub, Int.floor_zero, Int.ceil_zero, f1, f2, c1] <;>
    norm_num

theorem pct_position_one (m : PctMethod) (n : ℕ) : (n : ℝ) - 1 ≤ m.position tie n 1 := by
  have fn : ⌊(n : ℝ) - 1⌋ = (n : Int) - 1 := by
    rw [show (n : ℝ) - 1 = (((n : Int) - 1 : Int) : ℝ) by push_cast; ring, Int.floor_intCast]
  have cn : ⌈(n : ℝ) - 1⌉ = (n : Int) - 1 := by
    rw [show (n : ℝ) - 1 = (((n : Int) - 1 : Int) : ℝ) by push_cast; ring, Int.ceil_intCast]
  have f2 : ⌊(n : ℝ) - 1 - 1 / 2⌋ = (n : Int) - 2 := by rw [Int.floor_eq_iff]; push_cast; constructor <;> linarith
  cases m <;> simp only [PctMethod.position, virtualIndex, npAround, mul_one, one_mul, fn, cn, f2] <;> push_cast <;> norm_num
  all_goals first | linarith | skip
  · split_ifs with h
    · linarith [h.1]
    · linarith

/-- methods whose result is always one of the test values -/
def PickingNames : List String := ["inverted_cdf", "closest_observation", "lower", "higher", "nearest"]

theorem pct_interp_int (vals : List ℝ) (k : ℕ) : interp vals k = (sortedVals vals).getD k 0 := by simp [interp]

theorem pct_get_mem (vals : List ℝ) {i : ℕ} (hi : i < vals.length) : (sortedVals vals).getD i 0 ∈ vals := by
  have hi' : i < (sortedVals vals).length := by rw [sortedVals_length]; exact hi
  rw [List.getD_eq_getElem?_getD, List.getElem?_eq_getElem hi']
  exact (sortedVals_perm vals).mem_iff.1 (List.getElem_mem _)

/-- **C99** With each of the thirteen methods a percentile of a non-empty list of test values is defined exactly for 0 ≤ q ≤ 100, is non-decreasing in
`q` and runs from the smallest test value (q = 0) to the largest (q = 100). Any other name is a ValueError. -/
theorem C99_percentile (vals : List ℝ) (hv : vals ≠ []) (method : String) :
    (method ∉ PercentileNames → ∀ q, percentileBy tie method vals q = .error .valueError) ∧
    (∀ q, ¬ (0 ≤ q ∧ q ≤ 100) → percentileBy tie method vals q = .error .valueError) ∧
    (method ∈ PercentileNames →
      (∀ q, 0 ≤ q → q ≤ 100 → ∃ a, percentileBy tie method vals q = .ok a) ∧
      (∀ q q' a a', q ≤ q' → percentileBy tie method vals q = .ok a → percentileBy tie method vals q' = .ok a' → a ≤ a') ∧
      (∃ a, percentileBy tie method vals 0 = .ok a ∧ a ∈ vals ∧ ∀ v ∈ vals, a ≤ v) ∧
      (∃ a, percentileBy tie method vals 100 = .ok a ∧ a ∈ vals ∧ ∀ v ∈ vals, v ≤ a)) := by
  have hlen : 1 ≤ vals.length := List.length_pos_iff.2 hv
  have hlen' : (1 : ℝ) ≤ vals.length := by exact_mod_cast hlen
  have herr : ∀ q, ¬ (0 ≤ q ∧ q ≤ 100) → percentileBy tie method vals q = .error .valueError := by
    intro q hq
    unfold percentileBy
    rw [if_pos]
    by_contra hc
    push Not at hc
    exact hq hc
  have hidx : ∀ v ∈ vals, ∃ i, i < vals.length ∧ (sortedVals vals).getD i 0 = v := by
    intro v hv
    obtain ⟨i, hi, he⟩ := List.getElem_of_mem ((sortedVals_perm vals).mem_iff.2 hv)
    refine ⟨i, by rw [← sortedVals_length]; exact hi, ?_⟩
    rw [List.getD_eq_getElem?_getD, List.getElem?_eq_getElem hi]; exact he
  refine ⟨fun hm q => ?_, herr, fun hm => ?_⟩
  · have : PctMethod.ofName method = none := by
      by_contra hne
      obtain ⟨m, hm'⟩ := Option.ne_none_iff_exists'.1 hne
      exact hm ((pct_name method).2 ⟨m, hm'⟩)
    unfold percentileBy
    rw [this]
    split_ifs <;> rfl
  obtain ⟨m, hm⟩ := (pct_name method).1 hm
  refine ⟨fun q h0 h1 => ⟨_, pct_eq hm vals h0 h1⟩, fun q q' a a' hqq ha ha' => ?_, ?_, ?_⟩
  · have hq : 0 ≤ q ∧ q ≤ 100 := by by_contra hc; rw [herr q hc] at ha; cases ha
    have hq' : 0 ≤ q' ∧ q' ≤ 100 := by by_contra hc; rw [herr q' hc] at ha'; cases ha'
    rw [pct_eq hm vals hq.1 hq.2] at ha
    rw [pct_eq hm vals hq'.1 hq'.2] at ha'
    cases ha; cases ha'
    exact interp_mono vals _ _ (pct_clip_nonneg _ _) (pct_clip_mono (pct_position_mono m hlen' (by linarith))) (pct_clip_le hlen' _)
  · refine ⟨(sortedVals vals).getD 0 0, ?_, pct_get_mem vals (by omega), fun v hv => ?_⟩
    · rw [pct_eq hm vals le_rfl (by norm_num), zero_div, pct_clip_low (pct_position_zero m)]
      simp [interp]
    · obtain ⟨i, hi, he⟩ := hidx v hv
      rw [← he]; exact sortedVals_mono vals (by omega) hi
  · refine ⟨(sortedVals vals).getD (vals.length - 1) 0, ?_, pct_get_mem vals (by omega), fun v hv => ?_⟩
    · rw [pct_eq hm vals (by norm_num) le_rfl, show (100 : ℝ) / 100 = 1 by norm_num, pct_clip_high hlen' (pct_position_one m _),
        show (vals.length : ℝ) - 1 = ((vals.length - 1 : ℕ) : ℝ) by rw [Nat.cast_sub hlen]; norm_num, pct_interp_int]
    · obtain ⟨i, hi, he⟩ := hidx v hv
      rw [← he]; exact sortedVals_mono vals (by omega) (by omega)

/-- **C99** Confidence intervals with each method: defined exactly for levels strictly between 0 and 100, ordered, between the smallest and the largest
test value, around the median of that method, and wider for a higher level. -/
theorem C99_confidence_interval (vals : List ℝ) (hv : vals ≠ []) (method : String) (hm : method ∈ PercentileNames) :
    (∀ l, ¬ (0 < l ∧ l < 100) → confidenceIntervalBy tie method vals l = .error .valueError) ∧
    (∀ l, 0 < l → l < 100 → ∃ c, confidenceIntervalBy tie method vals l = .ok c ∧ c.1 ≤ c.2 ∧
      (∃ a ∈ vals, a ≤ c.1) ∧ (∃ b ∈ vals, c.2 ≤ b) ∧
      (∀ med, percentileBy tie method vals 50 = .ok med → c.1 ≤ med ∧ med ≤ c.2)) ∧
    (∀ l l' c c', l ≤ l' → confidenceIntervalBy tie method vals l = .ok c → confidenceIntervalBy tie method vals l' = .ok c' →
      c'.1 ≤ c.1 ∧ c.2 ≤ c'.2) := by
  obtain ⟨hex, hmono, ⟨amin, hmin, hminmem, -⟩, ⟨amax, hmax, hmaxmem, -⟩⟩ := (C99_percentile (tie := tie) vals hv method).2.2 hm
  have herr : ∀ l, ¬ (0 < l ∧ l < 100) → confidenceIntervalBy tie method vals l = .error .valueError := by
    intro l hl; unfold confidenceIntervalBy; rw [if_pos hl]
  have hok : ∀ l, 0 < l → l < 100 → ∃ a b, percentileBy tie method vals ((100 - l) / 2) = .ok a ∧
      percentileBy tie method vals (100 - (100 - l) / 2) = .ok b ∧ confidenceIntervalBy tie method vals l = .ok (a, b) := by
    intro l h0 h1
    obtain ⟨a, ha⟩ := hex ((100 - l) / 2) (by linarith) (by linarith)
    obtain ⟨b, hb⟩ := hex (100 - (100 - l) / 2) (by linarith) (by linarith)
    refine ⟨a, b, ha, hb, ?_⟩
    unfold confidenceIntervalBy
    rw [if_neg (not_not.2 ⟨h0, h1⟩)]
    simp only [ha, hb, bind, Except.bind, pure, Except.pure]
  refine ⟨herr, ?_, ?_⟩
  · intro l h0 h1
    obtain ⟨a, b, ha, hb, hc⟩ := hok l h0 h1
    refine ⟨(a, b), hc, hmono _ _ a b (by linarith) ha hb,
      ⟨amin, hminmem, hmono _ _ amin a (by linarith) hmin ha⟩,
      ⟨amax, hmaxmem, hmono _ _ b amax (by linarith) hb hmax⟩, ?_⟩
    intro med hm
    exact ⟨hmono _ _ a med (by linarith) ha hm, hmono _ _ med b (by linarith) hm hb⟩
  · intro l l' c c' hll hc hc'
    have hl : 0 < l ∧ l < 100 := by by_contra h; rw [herr l h] at hc; cases hc
    have hl' : 0 < l' ∧ l' < 100 := by by_contra h; rw [herr l' h] at hc'; cases hc'
    obtain ⟨a, b, ha, hb, he⟩ := hok l hl.1 hl.2
    obtain ⟨a', b', ha', hb', he'⟩ := hok l' hl'.1 hl'.2
    rw [he] at hc; rw [he'] at hc'
    cases hc; cases hc'
    exact ⟨hmono _ _ a' a (by linarith) ha' ha, hmono _ _ b b' (by linarith) hb hb'⟩

/-- **C99** `method="linear"` (the default) is the percentile of C43. -/
theorem C99_linear (vals : List ℝ) (hv : vals ≠ []) :
    (∀ q, percentileBy tie "linear" vals q = npPercentile vals q) ∧ ∀ l, confidenceIntervalBy tie "linear" vals l = confidenceInterval vals l := by
  have hlen' : (1 : ℝ) ≤ vals.length := by exact_mod_cast List.length_pos_iff.2 hv
  have key : ∀ q, percentileBy tie "linear" vals q = npPercentile vals q := by
    intro q
    by_cases hq : 0 ≤ q ∧ q ≤ 100
    · rw [pct_eq (m := .linear) rfl vals hq.1 hq.2, npPercentile_eq vals q hq.1 hq.2]
      have h1 : q / 100 ≤ 1 := by linarith [hq.2]
      have h0 : 0 ≤ q / 100 := by linarith [hq.1]
      simp only [PctMethod.position, pctClip]
      rw [min_eq_left (by nlinarith), max_eq_right (by nlinarith)]
    · rw [(C99_percentile vals hv "linear").2.1 q hq, (C43_percentile vals hv).1 q hq]
  exact ⟨key, fun l => by simp only [confidenceIntervalBy, confidenceInterval, key]⟩

theorem pct_interp_clip_int (vals : List ℝ) (hv : vals ≠ []) (k : Int) : interp vals (pctClip vals.length k) ∈ vals := by
  have hlen : 1 ≤ vals.length := List.length_pos_iff.2 hv
  have e : pctClip vals.length k = ((max 0 (min k ((vals.length : Int) - 1))).toNat : ℝ) := by
    have h0 : 0 ≤ max 0 (min k ((vals.length : Int) - 1)) := le_max_left _ _
    have : (((max 0 (min k ((vals.length : Int) - 1))).toNat : Int) : ℝ) = ((max 0 (min k ((vals.length : Int) - 1)) : Int) : ℝ) := by
      rw [Int.toNat_of_nonneg h0]
    rw [Int.cast_natCast] at this
    rw [this, pctClip]
    push_cast
    rfl
  rw [e, pct_interp_int]
  exact pct_get_mem vals (by omega)

/-- **C99** These methods never interpolate: the result is one of the test values. -/
theorem C99_picks (vals : List ℝ) (hv : vals ≠ []) (method : String) (hm : method ∈ PickingNames) (q a : ℝ)
    (h : percentileBy tie method vals q = .ok a) : a ∈ vals := by
  have hq : 0 ≤ q ∧ q ≤ 100 := by by_contra hc; rw [(C99_percentile vals hv method).2.1 q hc] at h; cases h
  have key : ∀ m, PctMethod.ofName method = some m → (∃ k : Int, m.position tie vals.length (q / 100) = k) → a ∈ vals := by
    rintro m hm ⟨k, hk⟩
    rw [pct_eq hm vals hq.1 hq.2, hk] at h
    cases h
    exact pct_interp_clip_int vals hv k
  simp only [PickingNames, List.mem_cons, List.not_mem_nil, or_false] at hm
  rcases hm with rfl | rfl | rfl | rfl | rfl
  · exact key .invertedCdf rfl ⟨_, rfl⟩
  · refine key .closestObservation rfl ?_
    simp only [PctMethod.position]
    split_ifs
    · exact ⟨_, rfl⟩
    · exact ⟨_ + 1, by push_cast; rfl⟩
  · exact key .lower rfl ⟨_, rfl⟩
  · exact key .higher rfl ⟨_, rfl⟩
  · refine key .nearest rfl ?_
    simp only [PctMethod.position]
    rcases pct_around_mem (q / 100 * (vals.length - 1)) with e | e
    · exact ⟨_, e⟩
    · exact ⟨_ + 1, by rw [e]; push_cast; rfl⟩

theorem pct_around_bounds (x : ℝ) : (⌊x⌋ : ℝ) ≤ npAround x ∧ npAround x ≤ ⌈x⌉ := by
  rcases pct_around_mem x with e | e
  · rw [e]; exact ⟨le_rfl, by exact_mod_cast Int.floor_le_ceil x⟩
  · refine ⟨by rw [e]; linarith, ?_⟩
    by_cases hx : x = ⌊x⌋
    · exfalso
      unfold npAround at e
      rw [if_pos (by rw [← hx]; norm_num)] at e
      linarith
    · rw [e]
      have : ⌊x⌋ < ⌈x⌉ := by
        have h1 : (⌊x⌋ : ℝ) < ⌈x⌉ := lt_of_lt_of_le (lt_of_le_of_ne (Int.floor_le x) (fun h => hx h.symm)) (Int.le_ceil x)
        exact_mod_cast h1
      exact_mod_cast this

/-- **C99** `lower` ≤ `linear`, `midpoint`, `nearest` ≤ `higher`. -/
theorem C99_between (vals : List ℝ) (hv : vals ≠ []) (q : ℝ) (h0 : 0 ≤ q) (h1 : q ≤ 100) (method : String) (hm : method ∈ ["linear", "midpoint", "nearest"]) :
    ∃ a b c, percentileBy tie "lower" vals q = .ok a ∧ percentileBy tie method vals q = .ok b ∧ percentileBy tie "higher" vals q = .ok c ∧
      a ≤ b ∧ b ≤ c := by
  have hlen' : (1 : ℝ) ≤ vals.length := by exact_mod_cast List.length_pos_iff.2 hv
  have key : ∀ m, PctMethod.ofName method = some m →
      (PctMethod.lower.position tie vals.length (q / 100) ≤ m.position tie vals.length (q / 100)) →
      (m.position tie vals.length (q / 100) ≤ PctMethod.higher.position tie vals.length (q / 100)) →
      ∃ a b c, percentileBy tie "lower" vals q = .ok a ∧ percentileBy tie method vals q = .ok b ∧ percentileBy tie "higher" vals q = .ok c ∧
        a ≤ b ∧ b ≤ c := fun m hm e1 e2 =>
    ⟨_, _, _, pct_eq (m := .lower) rfl vals h0 h1, pct_eq hm vals h0 h1, pct_eq (m := .higher) rfl vals h0 h1,
      interp_mono vals _ _ (pct_clip_nonneg _ _) (pct_clip_mono e1) (pct_clip_le hlen' _),
      interp_mono vals _ _ (pct_clip_nonneg _ _) (pct_clip_mono e2) (pct_clip_le hlen' _)⟩
  have f1 := Int.floor_le (q / 100 * ((vals.length : ℝ) - 1))
  have f2 := Int.le_ceil (q / 100 * ((vals.length : ℝ) - 1))
  simp only [List.mem_cons, List.not_mem_nil, or_false] at hm
  rcases hm with rfl | rfl | rfl
  · exact key .linear rfl f1 f2
  · refine key .midpoint rfl ?_ ?_ <;> simp only [PctMethod.position] <;> linarith
  · exact key .nearest rfl (pct_around_bounds _).1 (pct_around_bounds _).2

theorem pct_countP_le (vals : List ℝ) {k : ℕ} (hk : k < vals.length) : k + 1 ≤ vals.countP (fun v => decide (v ≤ (sortedVals vals).getD k 0)) := by
  rw [← (sortedVals_perm vals).countP_eq]
  have hl := sortedVals_length vals
  calc k + 1 = ((sortedVals vals).take (k + 1)).length := by rw [List.length_take, hl]; omega
    _ = ((sortedVals vals).take (k + 1)).countP (fun v => decide (v ≤ (sortedVals vals).getD k 0)) := by
        rw [eq_comm, List.countP_eq_length]
        intro v hv
        obtain ⟨i, hi, rfl⟩ := List.getElem_of_mem hv
        rw [List.length_take] at hi
        have := sortedVals_mono vals (i := i) (j := k) (by omega) hk
        rw [List.getD_eq_getElem?_getD, List.getElem?_eq_getElem (show i < (sortedVals vals).length by omega), Option.getD_some] at this
        simpa using this
    _ ≤ _ := List.Sublist.countP_le (List.take_sublist _ _)

theorem pct_countP_lt (vals : List ℝ) {k : ℕ} (hk : k < vals.length) : vals.countP (fun v => decide (v < (sortedVals vals).getD k 0)) ≤ k := by
  rw [← (sortedVals_perm vals).countP_eq]
  have hl := sortedVals_length vals
  have h2 : ((sortedVals vals).drop k).countP (fun v => decide (v < (sortedVals vals).getD k 0)) = 0 := by
    rw [List.countP_eq_zero]
    intro v hv
    obtain ⟨i, hi, rfl⟩ := List.getElem_of_mem hv
    rw [List.length_drop] at hi
    have := sortedVals_mono vals (i := k) (j := k + i) (by omega) (by omega)
    rw [List.getD_eq_getElem?_getD (i := k + i), List.getElem?_eq_getElem (show k + i < (sortedVals vals).length by omega), Option.getD_some] at this
    simpa using this
  conv_lhs => rw [← List.take_append_drop k (sortedVals vals)]
  rw [List.countP_append]
  rw [List.take_append_drop, h2, add_zero]
  exact List.countP_le_length.trans (by rw [List.length_take]; omega)

/-- **C99** `inverted_cdf` is the quantile of the empirical distribution: the test value `a` such that at least the fraction `q / 100` of the test
values is `≤ a` and less than that fraction is `< a`. -/
theorem C99_inverted_cdf (vals : List ℝ) (hv : vals ≠ []) (q : ℝ) (h0 : 0 < q) (h1 : q ≤ 100) :
    ∃ a ∈ vals, percentileBy tie "inverted_cdf" vals q = .ok a ∧
      q / 100 ≤ (vals.countP (fun v => decide (v ≤ a)) : ℝ) / vals.length ∧ (vals.countP (fun v => decide (v < a)) : ℝ) / vals.length < q / 100 := by
  have hlen : 1 ≤ vals.length := List.length_pos_iff.2 hv
  have hn : (0 : ℝ) < vals.length := by exact_mod_cast hlen
  obtain ⟨k, hk⟩ : ∃ k : ℕ, ⌈(vals.length : ℝ) * (q / 100) - 1⌉ = k := by
    refine Int.eq_ofNat_of_zero_le ?_
    have : (-1 : Int) < ⌈(vals.length : ℝ) * (q / 100) - 1⌉ := by
      rw [Int.lt_ceil]
      push_cast
      have : 0 < (vals.length : ℝ) * (q / 100) := by positivity
      linarith
    omega
  have hle : (vals.length : ℝ) * (q / 100) ≤ vals.length := by
    have : q / 100 ≤ 1 := by linarith
    nlinarith
  have c1 := Int.le_ceil ((vals.length : ℝ) * (q / 100) - 1)
  have c2 := Int.ceil_lt_add_one ((vals.length : ℝ) * (q / 100) - 1)
  rw [hk, Int.cast_natCast] at c1 c2
  have hkn : k < vals.length := by
    have : (k : ℝ) < vals.length := by linarith
    exact_mod_cast this
  have e : percentileBy tie "inverted_cdf" vals q = .ok ((sortedVals vals).getD k 0) := by
    rw [pct_eq (m := .invertedCdf) rfl vals h0.le h1]
    simp only [PctMethod.position, hk, Int.cast_natCast]
    have : (k : ℝ) ≤ (vals.length : ℝ) - 1 := by
      have : ((k + 1 : ℕ) : ℝ) ≤ vals.length := by exact_mod_cast hkn
      push_cast at this
      linarith
    rw [pctClip, min_eq_left this, max_eq_right (Nat.cast_nonneg k), pct_interp_int]
  refine ⟨_, pct_get_mem vals hkn, e, ?_, ?_⟩
  · rw [le_div_iff₀ hn]
    have : ((k + 1 : ℕ) : ℝ) ≤ (vals.countP (fun v => decide (v ≤ (sortedVals vals).getD k 0)) : ℝ) := by exact_mod_cast pct_countP_le vals hkn
    push_cast at this
    linarith
  · rw [div_lt_iff₀ hn]
    have : (vals.countP (fun v => decide (v < (sortedVals vals).getD k 0)) : ℝ) ≤ k := by exact_mod_cast pct_countP_lt vals hkn
    linarith

/-- **C99** The order of the test values does not matter. -/
theorem C99_order_irrelevant (vals vals' : List ℝ) (h : vals.Perm vals') (method : String) :
    (∀ q, percentileBy tie method vals q = percentileBy tie method vals' q) ∧
      ∀ l, confidenceIntervalBy tie method vals l = confidenceIntervalBy tie method vals' l := by
  have hs : sortedVals vals = sortedVals vals' := by
    have sp : ∀ xs : List ℝ, (sortedVals xs).Pairwise (fun a b : ℝ => a ≤ b) := by
      intro xs
      have := List.pairwise_mergeSort (le := fun a b : ℝ => decide (a ≤ b))
        (fun a b c h1 h2 => by simp only [decide_eq_true_eq] at *; exact le_trans h1 h2)
        (fun a b => by simp only [Bool.or_eq_true, decide_eq_true_eq]; exact le_total a b) xs
      exact this.imp (fun h => by simpa using h)
    exact List.Perm.eq_of_pairwise (fun a b _ _ h1 h2 => le_antisymm h1 h2) (sp vals) (sp vals')
      ((sortedVals_perm vals).trans (h.trans (sortedVals_perm vals').symm))
  have key : ∀ q, percentileBy tie method vals q = percentileBy tie method vals' q := by
    intro q
    unfold percentileBy
    rw [show vals.mergeSort (fun a b => decide (a ≤ b)) = vals'.mergeSort (fun a b => decide (a ≤ b)) from hs]
  exact ⟨key, fun l => by simp only [confidenceIntervalBy, key]⟩

example := (C99_percentile (tie := fun _ => true) [3, 1, 2] (by simp) "weibull").2.2 (by simp [PercentileNames])
example := (C99_confidence_interval (tie := fun _ => true) [3, 1, 2] (by simp) "nearest" (by simp [PercentileNames])).2.1 95 (by norm_num) (by norm_num)
example := C99_linear (tie := fun _ => true) [3, 1, 2] (by simp)
example := C99_between (tie := fun _ => true) [3, 1, 2] (by simp) 30 (by norm_num) (by norm_num) "midpoint" (by simp)
example := C99_inverted_cdf (tie := fun _ => true) [3, 1, 2] (by simp) 95 (by norm_num) (by norm_num)
example : ∃ a ∈ [(3 : ℝ), 1, 2], percentileBy (fun _ => true) "higher" [3, 1, 2] 40 = .ok a := by
  obtain ⟨a, h⟩ := ((C99_percentile (tie := fun _ => true) [3, 1, 2] (by simp) "higher").2.2 (by simp [PercentileNames])).1 40 (by norm_num) (by norm_num)
  exact ⟨a, C99_picks [3, 1, 2] (by simp) "higher" (by simp [PickingNames]) 40 a h, h⟩
example := C99_order_irrelevant (tie := fun _ => true) [3, 1, 2] [1, 3, 2] (List.Perm.swap 1 3 [2]) "hazen"

end Verif
