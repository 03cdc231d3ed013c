import Verif.Lemmas.Close2
import Verif.Spec.BiasInfo
import Verif.Lemmas.Divergence
import Mathlib.Algebra.Order.Chebyshev
import Mathlib.Analysis.SpecialFunctions.Pow.Real

/-! # Helper lemmas: distance from the plug-in entropy (Bonachela, Bayes, shrinkage, ANSB) -/

namespace Verif

open Spec

/-- tangent inequality of `−x log x` -/
theorem xlogx_tangent {p u : ℝ} (hp : 0 < p) (hu : 0 < u) :
    - (u * Real.log u) - - (p * Real.log p) ≤ (u - p) * (- Real.log p - 1) := by
  have h := Real.log_le_sub_one_of_pos (show 0 < p / u by positivity)
  rw [Real.log_div hp.ne' hu.ne'] at h
  have h2 := mul_le_mul_of_nonneg_left h hu.le
  have e : u * (p / u - 1) = p - u := by field_simp
  rw [e] at h2
  linarith

/-- modulus of continuity of `−x log x` -/
theorem xlogx_close {p u M : ℝ} (hp : 0 < p) (hu : 0 < u) (hp1 : p ≤ 1) (hu1 : u ≤ 1) (hMp : - Real.log p ≤ M)
    (hMu : - Real.log u ≤ M) : |- (u * Real.log u) - - (p * Real.log p)| ≤ |u - p| * (1 + M) := by
  have a1 := xlogx_tangent hp hu
  have a2 := xlogx_tangent hu hp
  have lp := Real.log_nonpos hp.le hp1
  have lu := Real.log_nonpos hu.le hu1
  have key : ∀ d L : ℝ, 0 ≤ L → L ≤ M → d * (L - 1) ≤ |d| * (1 + M) := fun d L h0 h1 => by
    refine (le_abs_self _).trans ?_
    rw [abs_mul]
    refine mul_le_mul_of_nonneg_left ?_ (abs_nonneg _)
    rw [abs_le]; constructor <;> linarith
  rw [abs_le]
  constructor
  · have := key (p - u) (- Real.log u) (by linarith) hMu
    rw [abs_sub_comm] at this
    linarith
  · exact a1.trans (key (u - p) (- Real.log p) (by linarith) hMp)

section
variable {α : Type} [DecidableEq α]

theorem freq_ge {xs : List α} {a : α} (ha : a ∈ xs) : 1 / (xs.length : ℝ) ≤ freq xs a := by
  unfold freq
  exact div_le_div_of_nonneg_right (cnt_posR ha) (lenR_pos ha).le

theorem neg_log_freq_le {xs : List α} {a : α} (ha : a ∈ xs) : - Real.log (freq xs a) ≤ Real.log xs.length := by
  have := Real.log_le_log (by have := lenR_pos ha; positivity) (freq_ge ha)
  rw [one_div, Real.log_inv] at this
  linarith

/-- entropy of any assignment of probabilities in `(0,1]` to the observed symbols -/
theorem probs_close (xs : List α) (P : α → ℝ) (M : ℝ) (hP : ∀ a ∈ xs, 0 < P a ∧ P a ≤ 1) (hM : ∀ a ∈ xs, - Real.log (P a) ≤ M)
    (hN : Real.log xs.length ≤ M) :
    |(- ∑ a ∈ xs.toFinset, P a * Real.log (P a)) - entropy xs| ≤ (∑ a ∈ xs.toFinset, |P a - freq xs a|) * (1 + M) := by
  unfold entropy
  rw [← Finset.sum_neg_distrib, ← Finset.sum_neg_distrib, ← Finset.sum_sub_distrib, Finset.sum_mul]
  refine (Finset.abs_sum_le_sum_abs _ _).trans (Finset.sum_le_sum fun a ha => ?_)
  have ha' := List.mem_toFinset.1 ha
  exact xlogx_close (freq_pos ha') (hP a ha').1 (freq_le_one _ _) (hP a ha').2 ((neg_log_freq_le ha').trans hN) (hM a ha')

theorem bayes_close {xs : List α} (h : xs ≠ []) {k a : ℝ} (hk : 1 ≤ k) (ha : 0 ≤ a) :
    |bayes xs k a - entropy xs| ≤ xs.toFinset.card * (k * a / (xs.length + k * a)) * (1 + Real.log (xs.length + k * a)) := by
  have hN : (1:ℝ) ≤ xs.length := by exact_mod_cast List.length_pos_iff.2 h
  have hka : 0 ≤ k * a := by positivity
  have hD : (0:ℝ) < xs.length + k * a := by linarith
  have hP : ∀ s ∈ xs, 0 < bayesProb xs k a s ∧ bayesProb xs k a s ≤ 1 := fun s hs => by
    have h1 := cnt_posR hs
    have h2 := cnt_leR xs s
    unfold bayesProb
    refine ⟨by positivity, ?_⟩
    rw [div_le_one hD]
    nlinarith
  have hM : ∀ s ∈ xs, - Real.log (bayesProb xs k a s) ≤ Real.log (xs.length + k * a) := fun s hs => by
    have h1 := cnt_posR hs
    have : 1 / (xs.length + k * a) ≤ bayesProb xs k a s := by
      unfold bayesProb
      exact div_le_div_of_nonneg_right (by linarith) hD.le
    have := Real.log_le_log (by positivity) this
    rw [one_div, Real.log_inv] at this
    linarith
  have key := probs_close xs (bayesProb xs k a) (Real.log (xs.length + k * a)) hP hM
    (Real.log_le_log (by linarith) (by linarith))
  refine key.trans (mul_le_mul_of_nonneg_right ?_ ?_)
  · rw [← nsmul_eq_mul, ← Finset.sum_const]
    refine Finset.sum_le_sum fun s hs => ?_
    have h1 := cnt_posR (List.mem_toFinset.1 hs)
    have h2 := cnt_leR xs s
    unfold bayesProb freq
    have e : ((cnt xs s : ℝ) + a) / (xs.length + k * a) - cnt xs s / xs.length =
        (a * (xs.length - k * cnt xs s) / xs.length) / (xs.length + k * a) := by field_simp; ring
    rw [e, abs_div, abs_of_pos hD]
    refine div_le_div_of_nonneg_right ?_ hD.le
    rw [abs_div, abs_of_pos (by linarith : (0:ℝ) < xs.length), div_le_iff₀ (by linarith), abs_mul, abs_of_nonneg ha]
    have : |(xs.length : ℝ) - k * cnt xs s| ≤ k * xs.length := by
      rw [abs_le]; constructor <;> nlinarith
    nlinarith [mul_le_mul_of_nonneg_left this ha]
  · have : 0 ≤ Real.log (xs.length + k * a) := Real.log_nonneg (by linarith)
    linarith

/-- squared distance of the frequencies from the uniform distribution -/
noncomputable def spreadSq (xs : List α) : ℝ := ∑ a ∈ xs.toFinset, (1 / (xs.toFinset.card : ℝ) - freq xs a) ^ 2

theorem shrinkWeight_01 (xs : List α) : 0 ≤ shrinkWeight xs ∧ shrinkWeight xs ≤ 1 := by
  unfold shrinkWeight
  simp only []
  split_ifs
  · exact ⟨by norm_num, le_rfl⟩
  · exact ⟨le_max_left _ _, max_le (by norm_num) (min_le_left _ _)⟩

theorem shrinkWeight_spread {xs : List α} (h : 2 ≤ xs.length) : shrinkWeight xs * spreadSq xs ≤ 1 / ((xs.length : ℝ) - 1) := by
  have hN : (2:ℝ) ≤ xs.length := by exact_mod_cast h
  have hne : xs ≠ [] := by rintro rfl; simp at h
  have hm0 : 0 ≤ spreadSq xs := Finset.sum_nonneg fun a _ => sq_nonneg _
  have hr : (0:ℝ) ≤ 1 / ((xs.length : ℝ) - 1) := div_nonneg zero_le_one (by linarith)
  by_cases h0 : spreadSq xs = 0
  · rw [h0, mul_zero]; exact hr
  have hmp : 0 < spreadSq xs := lt_of_le_of_ne hm0 (Ne.symm h0)
  have hw : shrinkWeight xs = max 0 (min 1 ((1 - ∑ a ∈ xs.toFinset, freq xs a ^ 2) / (((xs.length : ℝ) - 1) * spreadSq xs))) := by
    unfold shrinkWeight
    simp only []
    rw [if_neg]
    · rfl
    · rintro (h1 | h1)
      · omega
      · exact h0 h1
  have hs2 : ∑ a ∈ xs.toFinset, freq xs a ^ 2 ≤ 1 := by
    rw [← sum_freq hne]
    refine Finset.sum_le_sum fun a _ => ?_
    have h1 := freq_nonneg xs a
    have h2 := freq_le_one xs a
    nlinarith
  have hs0 : 0 ≤ ∑ a ∈ xs.toFinset, freq xs a ^ 2 := Finset.sum_nonneg fun a _ => sq_nonneg _
  have hx0 : 0 ≤ (1 - ∑ a ∈ xs.toFinset, freq xs a ^ 2) / (((xs.length : ℝ) - 1) * spreadSq xs) :=
    div_nonneg (by linarith) (mul_nonneg (by linarith) hm0)
  have hle : shrinkWeight xs ≤ (1 - ∑ a ∈ xs.toFinset, freq xs a ^ 2) / (((xs.length : ℝ) - 1) * spreadSq xs) := by
    rw [hw]; exact max_le hx0 (min_le_right _ _)
  refine (mul_le_mul_of_nonneg_right hle hm0).trans ?_
  have e : (1 - ∑ a ∈ xs.toFinset, freq xs a ^ 2) / (((xs.length : ℝ) - 1) * spreadSq xs) * spreadSq xs =
      (1 - ∑ a ∈ xs.toFinset, freq xs a ^ 2) / ((xs.length : ℝ) - 1) := by
    have : (xs.length : ℝ) - 1 ≠ 0 := by linarith
    field_simp
  rw [e]
  exact div_le_div_of_nonneg_right (by linarith) (by linarith)

theorem cardR_pos {xs : List α} {a : α} (ha : a ∈ xs) : (1:ℝ) ≤ xs.toFinset.card := by
  have : 0 < xs.toFinset.card := Finset.card_pos.2 ⟨a, List.mem_toFinset.2 ha⟩
  exact_mod_cast this

theorem cardR_le (xs : List α) : (xs.toFinset.card : ℝ) ≤ xs.length := by exact_mod_cast List.toFinset_card_le xs

theorem shrinkProb_bounds {xs : List α} {a : α} (ha : a ∈ xs) :
    1 / (xs.length : ℝ) ≤ shrinkProb xs a ∧ shrinkProb xs a ≤ 1 ∧ shrinkWeight xs / xs.toFinset.card ≤ shrinkProb xs a := by
  obtain ⟨w0, w1⟩ := shrinkWeight_01 xs
  have hK := cardR_pos ha
  have hKN := cardR_le xs
  have f1 := freq_ge ha
  have f2 := freq_le_one xs a
  have f0 := freq_nonneg xs a
  have g1 : 1 / (xs.length : ℝ) ≤ 1 / xs.toFinset.card := one_div_le_one_div_of_le (by linarith) hKN
  have g2 : 1 / (xs.toFinset.card : ℝ) ≤ 1 := by rw [div_le_one (by linarith)]; exact hK
  unfold shrinkProb
  refine ⟨?_, ?_, ?_⟩
  · nlinarith
  · nlinarith
  · have : 0 ≤ (1 - shrinkWeight xs) * freq xs a := mul_nonneg (by linarith) f0
    have e : shrinkWeight xs / xs.toFinset.card = shrinkWeight xs * (1 / xs.toFinset.card) := by ring
    rw [e]; linarith

theorem shrink_close {xs : List α} (h : 2 ≤ xs.length) :
    |shrink xs - entropy xs| ≤ Real.sqrt (xs.toFinset.card / ((xs.length : ℝ) - 1)) * (1 + Real.log xs.length) := by
  have hN : (2:ℝ) ≤ xs.length := by exact_mod_cast h
  obtain ⟨w0, w1⟩ := shrinkWeight_01 xs
  have key := probs_close xs (shrinkProb xs) (Real.log xs.length)
    (fun a ha => ⟨lt_of_lt_of_le (by have := lenR_pos ha; positivity) (shrinkProb_bounds ha).1, (shrinkProb_bounds ha).2.1⟩)
    (fun a ha => by
      have := Real.log_le_log (by have := lenR_pos ha; positivity) (shrinkProb_bounds ha).1
      rw [one_div, Real.log_inv] at this
      linarith) le_rfl
  refine key.trans (mul_le_mul_of_nonneg_right ?_ (by have := Real.log_nonneg (by linarith : (1:ℝ) ≤ xs.length); linarith))
  refine Real.le_sqrt_of_sq_le ?_
  have e : ∀ a, |shrinkProb xs a - freq xs a| = shrinkWeight xs * |1 / (xs.toFinset.card : ℝ) - freq xs a| := fun a => by
    unfold shrinkProb
    rw [← abs_of_nonneg w0, ← abs_mul, abs_of_nonneg w0]
    congr 1; ring
  simp only [e]
  rw [← Finset.mul_sum, mul_pow]
  have cs := sq_sum_le_card_mul_sum_sq (s := xs.toFinset) (f := fun a => |1 / (xs.toFinset.card : ℝ) - freq xs a|)
  simp only [sq_abs] at cs
  have hsp := shrinkWeight_spread h
  have hm0 : 0 ≤ spreadSq xs := Finset.sum_nonneg fun a _ => sq_nonneg _
  calc shrinkWeight xs ^ 2 * (∑ a ∈ xs.toFinset, |1 / (xs.toFinset.card : ℝ) - freq xs a|) ^ 2
      ≤ shrinkWeight xs ^ 2 * (xs.toFinset.card * spreadSq xs) := mul_le_mul_of_nonneg_left cs (sq_nonneg _)
    _ = shrinkWeight xs * (xs.toFinset.card * (shrinkWeight xs * spreadSq xs)) := by ring
    _ ≤ 1 * (xs.toFinset.card * (1 / ((xs.length : ℝ) - 1))) :=
        mul_le_mul w1 (mul_le_mul_of_nonneg_left hsp (by positivity)) (by positivity) zero_le_one
    _ = xs.toFinset.card / ((xs.length : ℝ) - 1) := by ring

theorem shrinkCross_close {xs : List α} (h : 2 ≤ xs.length) :
    0 ≤ shrinkCross xs - entropy xs ∧ shrinkCross xs - entropy xs ≤ xs.toFinset.card / ((xs.length : ℝ) - 1) := by
  have hne : xs ≠ [] := by rintro rfl; simp at h
  have hN : (2:ℝ) ≤ xs.length := by exact_mod_cast h
  obtain ⟨w0, w1⟩ := shrinkWeight_01 xs
  have hK : (1:ℝ) ≤ xs.toFinset.card := by
    obtain ⟨a, ha⟩ := List.exists_mem_of_ne_nil _ hne
    exact cardR_pos ha
  have hpos : ∀ a ∈ xs, 0 < shrinkProb xs a := fun a ha =>
    lt_of_lt_of_le (by have := lenR_pos ha; positivity) (shrinkProb_bounds ha).1
  have hsum : ∑ a ∈ xs.toFinset, shrinkProb xs a = 1 := by
    unfold shrinkProb
    rw [Finset.sum_add_distrib, ← Finset.mul_sum, ← Finset.mul_sum, sum_freq hne, Finset.sum_const, nsmul_eq_mul]
    field_simp
    ring
  have e : shrinkCross xs - entropy xs = ∑ a ∈ xs.toFinset, freq xs a * Real.log (freq xs a / shrinkProb xs a) := by
    unfold shrinkCross entropy
    rw [neg_sub_neg, ← Finset.sum_sub_distrib]
    refine Finset.sum_congr rfl fun a ha => ?_
    have ha' := List.mem_toFinset.1 ha
    rw [Real.log_div (freq_pos ha').ne' (hpos a ha').ne']; ring
  rw [e]
  refine ⟨gibbs _ _ _ (fun a _ => freq_nonneg xs a) (fun a ha => hpos a (List.mem_toFinset.1 ha)) (by rw [sum_freq hne, hsum]), ?_⟩
  have hterm : ∀ a ∈ xs.toFinset, freq xs a * Real.log (freq xs a / shrinkProb xs a) ≤
      xs.toFinset.card * (shrinkWeight xs * (1 / (xs.toFinset.card : ℝ) - freq xs a) ^ 2) + (freq xs a - shrinkProb xs a) := by
    intro a ha
    have ha' := List.mem_toFinset.1 ha
    have fp := freq_pos ha'
    have pp := hpos a ha'
    have l1 := Real.log_le_sub_one_of_pos (div_pos fp pp)
    have l2 := mul_le_mul_of_nonneg_left l1 fp.le
    refine l2.trans ?_
    have e1 : freq xs a * (freq xs a / shrinkProb xs a - 1) =
        (shrinkProb xs a - freq xs a) ^ 2 / shrinkProb xs a + (freq xs a - shrinkProb xs a) := by field_simp; ring
    have e2 : shrinkProb xs a - freq xs a = shrinkWeight xs * (1 / (xs.toFinset.card : ℝ) - freq xs a) := by
      unfold shrinkProb; ring
    rw [e1]
    have : (shrinkProb xs a - freq xs a) ^ 2 / shrinkProb xs a ≤
        xs.toFinset.card * (shrinkWeight xs * (1 / (xs.toFinset.card : ℝ) - freq xs a) ^ 2) := by
      rw [div_le_iff₀ pp, e2]
      have hb := (shrinkProb_bounds ha').2.2
      rw [div_le_iff₀ (by linarith)] at hb
      have hsq := sq_nonneg (1 / (xs.toFinset.card : ℝ) - freq xs a)
      have := mul_le_mul_of_nonneg_left hb (mul_nonneg w0 hsq)
      nlinarith
    linarith
  refine (Finset.sum_le_sum hterm).trans ?_
  rw [Finset.sum_add_distrib, Finset.sum_sub_distrib, sum_freq hne, hsum, sub_self, add_zero, ← Finset.mul_sum, ← Finset.mul_sum]
  have := mul_le_mul_of_nonneg_left (shrinkWeight_spread h) (by linarith : (0:ℝ) ≤ xs.toFinset.card)
  unfold spreadSq at this
  refine this.trans (le_of_eq (by ring))

theorem bonachela_close {xs : List α} (h : xs ≠ []) :
    - (5 * xs.toFinset.card / ((xs.length : ℝ) + 2)) ≤ bonachela xs - entropy xs ∧
    bonachela xs - entropy xs ≤ xs.toFinset.card * (1 + Real.log xs.length) / ((xs.length : ℝ) + 2) := by
  have hN : (1:ℝ) ≤ xs.length := by exact_mod_cast List.length_pos_iff.2 h
  have hN0 : (0:ℝ) < xs.length := by linarith
  have hlogN : 0 ≤ Real.log xs.length := Real.log_nonneg hN
  have eB : bonachela xs = ∑ a ∈ xs.toFinset, ((cnt xs a : ℝ) + 1) / ((xs.length : ℝ) + 2) *
      ∑ j ∈ Finset.Ico (cnt xs a + 2) (xs.length + 3), 1 / (j : ℝ) := by
    unfold bonachela
    rw [Finset.mul_sum]
    refine Finset.sum_congr rfl fun a _ => ?_
    rw [show xs.length + 3 = (xs.length + 2) + 1 by rfl, Finset.Ico_add_one_right_eq_Icc]
    ring
  have key : ∀ a ∈ xs.toFinset,
      - (5 / ((xs.length : ℝ) + 2)) ≤ ((cnt xs a : ℝ) + 1) / ((xs.length : ℝ) + 2) *
        ∑ j ∈ Finset.Ico (cnt xs a + 2) (xs.length + 3), 1 / (j : ℝ) - - (freq xs a * Real.log (freq xs a)) ∧
      ((cnt xs a : ℝ) + 1) / ((xs.length : ℝ) + 2) *
        ∑ j ∈ Finset.Ico (cnt xs a + 2) (xs.length + 3), 1 / (j : ℝ) - - (freq xs a * Real.log (freq xs a)) ≤
        (1 + Real.log xs.length) / ((xs.length : ℝ) + 2) := by
    intro a ha
    have ha' := List.mem_toFinset.1 ha
    have hc := cnt_posR ha'
    have hcN := cnt_leR xs a
    have hcn := cnt_le_length xs a
    have fp := freq_pos ha'
    have f1 := freq_le_one xs a
    set n : ℝ := ((cnt xs a : ℕ) : ℝ) with hn
    set N : ℝ := ((xs.length : ℕ) : ℝ) with hNd
    set p := freq xs a with hp
    have hpe : p = n / N := rfl
    set u := (n + 1) / (N + 2) with hu
    have hu0 : 0 < u := by positivity
    have hL0 : 0 ≤ - Real.log p := by have := Real.log_nonpos fp.le f1; linarith
    have hLN : - Real.log p ≤ Real.log N := neg_log_freq_le ha'
    have hd : u - p = (N - 2 * n) / (N * (N + 2)) := by rw [hpe, hu]; field_simp; ring
    have hd1 : u - p ≤ 1 / (N + 2) := by
      rw [hd, div_le_div_iff₀ (by positivity) (by positivity)]; nlinarith
    have hd2 : - (1 / (N + 2)) ≤ u - p := by
      rw [hd, ← neg_div, div_le_div_iff₀ (by positivity) (by positivity)]; nlinarith
    -- upper bound of the harmonic sum
    have hup : ∑ j ∈ Finset.Ico (cnt xs a + 2) (xs.length + 3), 1 / (j : ℝ) ≤ - Real.log u := by
      have b := (harmonic_between (cnt xs a + 1) (xs.length + 2) (by omega) (by omega)).2
      have s1 : ∑ k ∈ Finset.Ico (cnt xs a + 1) (xs.length + 2), 1 / (k : ℝ) =
          1 / ((cnt xs a + 1 : ℕ) : ℝ) + ∑ k ∈ Finset.Ico (cnt xs a + 2) (xs.length + 2), 1 / (k : ℝ) :=
        Finset.sum_eq_sum_Ico_succ_bot (by omega) _
      have s2 : ∑ k ∈ Finset.Ico (cnt xs a + 2) (xs.length + 3), 1 / (k : ℝ) =
          ∑ k ∈ Finset.Ico (cnt xs a + 2) (xs.length + 2), 1 / (k : ℝ) + 1 / ((xs.length + 2 : ℕ) : ℝ) :=
        Finset.sum_Ico_succ_top (by omega) _
      rw [s1] at b
      rw [s2]
      have e : Real.log (((xs.length + 2 : ℕ) : ℝ) / ((cnt xs a + 1 : ℕ) : ℝ)) = - Real.log u := by
        rw [← Real.log_inv, hu, inv_div]; push_cast; rfl
      rw [e] at b
      linarith
    have hlow : - Real.log p - 2 / n ≤ ∑ j ∈ Finset.Ico (cnt xs a + 2) (xs.length + 3), 1 / (j : ℝ) := by
      have b := (harmonic_between (cnt xs a + 2) (xs.length + 3) (by omega) (by omega)).1
      refine le_trans ?_ b
      push_cast
      rw [← hn, ← hNd, Real.log_div (by positivity) (by positivity), hpe]
      rw [Real.log_div (by positivity) (by positivity)]
      have g1 : Real.log N ≤ Real.log (N + 3) := Real.log_le_log hN0 (by linarith)
      have g2 : Real.log (n + 2) ≤ Real.log n + 2 / n := by
        have := Real.log_le_sub_one_of_pos (show 0 < (n + 2) / n by positivity)
        rw [Real.log_div (by positivity) (by positivity)] at this
        have e : (n + 2) / n - 1 = 2 / n := by field_simp; ring
        linarith
      linarith
    constructor
    · have t1 := mul_le_mul_of_nonneg_left hlow hu0.le
      have t2 : u * (2 / n) ≤ 4 / (N + 2) := by
        rw [hu, div_mul_div_comm, div_le_div_iff₀ (by positivity) (by positivity)]
        have : 0 ≤ (N + 2) := by positivity
        nlinarith
      have t3 : - (1 / (N + 2)) ≤ (u - p) * (- Real.log p) := by
        by_cases hs : 0 ≤ u - p
        · have := mul_nonneg hs hL0
          have h2 : 0 < 1 / (N + 2) := by positivity
          linarith
        · push Not at hs
          have hL1 : - Real.log p ≤ 1 := by
            have h1 : N - 2 * n < 0 := by
              rw [hd] at hs
              by_contra hh
              push Not at hh
              have : 0 ≤ (N - 2 * n) / (N * (N + 2)) := by positivity
              linarith
            have := Real.one_sub_inv_le_log_of_pos fp
            have e : p⁻¹ = N / n := by rw [hpe, inv_div]
            rw [e] at this
            have : N / n ≤ 2 := by rw [div_le_iff₀ (by linarith)]; linarith
            linarith
          nlinarith
      have e5 : (5:ℝ) / (N + 2) = 4 / (N + 2) + 1 / (N + 2) := by ring
      rw [e5]
      nlinarith
    · have t1 := mul_le_mul_of_nonneg_left hup hu0.le
      have t2 := xlogx_tangent fp hu0
      have t3 : (u - p) * (- Real.log p - 1) ≤ (1 + Real.log N) / (N + 2) := by
        have e : (1 + Real.log N) / (N + 2) = 1 / (N + 2) * (1 + Real.log N) := by ring
        rw [e]
        refine (le_abs_self _).trans ?_
        rw [abs_mul]
        exact mul_le_mul (abs_le.2 ⟨hd2, hd1⟩) (abs_le.2 ⟨by linarith, by linarith⟩) (abs_nonneg _) (by positivity)
      linarith
  rw [eB]
  unfold entropy
  rw [← Finset.sum_neg_distrib, ← Finset.sum_sub_distrib]
  constructor
  · refine le_trans (le_of_eq ?_) (Finset.sum_le_sum fun a ha => (key a ha).1)
    rw [Finset.sum_const, nsmul_eq_mul]; ring
  · refine (Finset.sum_le_sum fun a ha => (key a ha).2).trans (le_of_eq ?_)
    rw [Finset.sum_const, nsmul_eq_mul]; ring

end

/-- the asymptotic NSB formula follows the logarithm of the sample size -/
theorem ansb_bounds (N K : Nat) (h : K < N) :
    Real.log N + (Real.eulerMascheroniConstant - Real.log 2) ≤ ansb N K ∧
    ansb N K ≤ Real.log N + (Real.eulerMascheroniConstant - Real.log 2) + (K + 1) / (N - K) := by
  obtain ⟨p1, p2⟩ := psi_between (N - K) (by omega)
  have hc : ((N - K : ℕ) : ℝ) = N - K := Nat.cast_sub h.le
  have hpos : (0:ℝ) < N - K := by
    have : (K:ℝ) < N := by exact_mod_cast h
    linarith
  have hN : (0:ℝ) < N := by have : (0:ℝ) ≤ K := by positivity
                            linarith
  rw [hc] at p1 p2
  have l1 : Real.log ((N:ℝ) - K) ≤ Real.log N := Real.log_le_log hpos (by have : (0:ℝ) ≤ K := by positivity
                                                                          linarith)
  have l2 : Real.log N ≤ Real.log ((N:ℝ) - K) + K / (N - K) := by
    have := Real.log_le_sub_one_of_pos (show 0 < (N:ℝ) / (N - K) by positivity)
    rw [Real.log_div hN.ne' hpos.ne'] at this
    have e : (N:ℝ) / (N - K) - 1 = K / (N - K) := by field_simp; ring
    linarith
  unfold ansb
  constructor
  · linarith
  · rw [add_div]; linarith

end Verif
