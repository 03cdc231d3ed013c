import Verif.Model.BiasCorrected
import Verif.Spec.Bias
import Verif.Lemmas.Generic

/-! # Helper lemmas: bias-corrected estimators on a sample -/

namespace Verif

open Spec

theorem digamma_nat (n : Nat) (hn : 0 < n) : digamma (n : ℝ) = Spec.psi n := by
  obtain ⟨m, rfl⟩ : ∃ m, n = m + 1 := ⟨n - 1, by omega⟩
  unfold digamma Spec.psi
  push_cast
  rw [Real.deriv_Gamma_nat, Real.Gamma_nat_eq_factorial]
  have : (m.factorial : ℝ) ≠ 0 := by exact_mod_cast m.factorial_ne_zero
  rw [mul_div_cancel_left₀ _ this]
  congr 1
  simp [harmonic]

theorem npDigamma_nat (n : Nat) (hn : 0 < n) : npDigamma (n : Int) = .ok (Spec.psi n) := by
  unfold npDigamma
  rw [if_pos (by exact_mod_cast hn)]
  rw [← digamma_nat n hn]; simp

theorem npDiv_ok {a b : ℝ} (h : b ≠ 0) : npDiv a b = .ok (a / b) := by
  unfold npDiv; rw [if_neg h]

theorem npLog_ok {x : ℝ} (h : 0 < x) : npLog x = .ok (Real.log x) := by
  unfold npLog; rw [if_pos h]

section
variable {α : Type} [LinearOrder α]

theorem mkData_N (xs : List α) : (mkData xs).N = (xs.length : Int) := rfl
theorem mkData_K (xs : List α) : (mkData xs).K = xs.toFinset.card := npUnique_length xs
theorem mkData_counts (xs : List α) :
    (mkData xs).counts = (npUnique xs).map (fun a => ((cnt xs a : Nat) : Int)) := by
  show (npCounts xs).map Int.ofNat = _
  rw [npCounts_eq, List.map_map]; rfl
theorem mkData_uniq (xs : List α) : (mkData xs).uniq = npUnique xs := rfl
theorem mkData_samples (xs : List α) : (mkData xs).samples = .ok xs := rfl

theorem mapM_map' {ε A B C : Type} (l : List A) (f : A → B) (g : B → Except ε C) :
    (l.map f).mapM g = l.mapM (fun a => g (f a)) := by
  induction l with
  | nil => rfl
  | cons a l ih => simp only [List.map_cons, List.mapM_cons, ih]

theorem sum_npUnique' (xs : List α) (f : α → ℝ) :
    ((npUnique xs).map f).sum = ∑ a ∈ xs.toFinset, f a := sum_npUnique xs f

theorem countEq_mkData (xs : List α) (m : Nat) : countEq (mkData xs) (m : Int) = occurring xs m := by
  unfold countEq occurring
  rw [mkData_counts, List.countP_map]
  have h : ((fun c : Int => decide (c = (m : Int))) ∘ fun a => ((cnt xs a : Nat) : Int)) =
      fun a => decide (cnt xs a = m) := by
    funext a; simp
  rw [h, List.countP_eq_length_filter, ← List.toFinset_card_of_nodup ((npUnique_nodup xs).filter _)]
  congr 1
  ext a; simp

theorem mean_map_sample (xs : List α) (f : α → ℝ) :
    Spec.mean (xs.map f) = ∑ a ∈ xs.toFinset, freq xs a * f a := by
  rw [Spec.mean, sum_map_eq_count, List.length_map, Finset.sum_div]
  refine Finset.sum_congr rfl fun a _ => ?_
  unfold freq; ring

omit [LinearOrder α] in
theorem sum_scale (s : Finset α) (f g : α → ℝ) (c : ℝ) :
    ∑ a ∈ s, f a * (g a / c) = (∑ a ∈ s, f a * g a) / c := by
  rw [Finset.sum_div]
  exact Finset.sum_congr rfl fun a _ => by ring

omit [LinearOrder α] in
theorem length_pos_real {xs : List α} (h : xs ≠ []) : (0:ℝ) < xs.length := by
  exact_mod_cast List.length_pos_iff.2 h

/-! ### Miller–Madow -/

theorem mmFactor_ok (xs : List α) {b : Base} (hb : b.Valid) :
    mmFactor b (mkData xs) = .ok (((xs.toFinset.card : ℝ) - 1) / (2 * xs.length) / b.ln) := by
  unfold mmFactor
  rw [scaleBase_ok hb, mkData_K, mkData_N]
  simp

theorem mmSimple_ok (xs : List α) {b : Base} (hb : b.Valid) :
    mmSimple b (mkData xs) = .ok (millerMadow xs / b.ln) := by
  simp only [mmSimple, discreteSimple_ok hb, mmFactor_ok xs hb, bind, Except.bind, pure, Except.pure,
    millerMadow, add_div]

theorem mmLocal_ok (xs : List α) {b : Base} (hb : b.Valid) :
    mmLocal b (mkData xs) = .ok (xs.map (fun a => - (Real.log (freq xs a) / b.ln) +
      ((xs.toFinset.card : ℝ) - 1) / (2 * xs.length) / b.ln)) := by
  simp only [mmLocal, discreteLocal_ok hb, mmFactor_ok xs hb, bind, Except.bind, pure, Except.pure,
    List.map_map]
  rfl

/-! ### Grassberger -/

theorem grassbergerLocal_ok {xs : List α} (h : xs ≠ []) {b : Base} (hb : b.Valid) :
    grassbergerLocal b (mkData xs) = .ok (xs.map (fun a =>
      (Real.log xs.length - psi (cnt xs a) - (-1) ^ cnt xs a / ((cnt xs a : ℝ) + 1)) / b.ln)) := by
  unfold grassbergerLocal
  have e1 : xs.mapM (dictGet ((mkData xs).uniq.zip (mkData xs).counts)) =
      .ok (xs.map (fun a => ((cnt xs a : Nat) : Int))) := by
    refine mapM_ok xs fun a ha => ?_
    rw [mkData_uniq, mkData_counts]
    exact dictGet_zip (npUnique xs) _ (mem_npUnique.2 ha)
  have e2 : npLog ((mkData xs).N : ℝ) = .ok (Real.log xs.length) := by
    unfold npLog
    rw [mkData_N, if_pos (by simpa using length_pos_real h)]
    simp
  simp only [mkData_samples, bind, Except.bind, e1, e2]
  rw [mapM_map']
  refine mapM_ok xs fun a ha => ?_
  have hc := cnt_pos_iff.2 ha
  have hd : ((cnt xs a : ℝ) + 1) ≠ 0 := by positivity
  simp only [npDigamma_nat _ hc, Int.toNat_natCast, Int.cast_natCast, npDiv_ok hd, scaleBase_ok hb]

theorem grassbergerSimple_ok {xs : List α} (h : xs ≠ []) {b : Base} (hb : b.Valid) :
    grassbergerSimple b (mkData xs) = .ok (grassberger xs / b.ln) := by
  unfold grassbergerSimple
  rw [grassbergerLocal_ok h hb]
  simp only [Except.map]
  congr 1
  have := mean_map_sample xs (fun a => (Real.log xs.length - psi (cnt xs a) -
    (-1) ^ cnt xs a / ((cnt xs a : ℝ) + 1)) / b.ln)
  rw [sum_scale] at this
  exact this

/-! ### Chao–Shen -/

theorem occurring_le (xs : List α) : occurring xs 1 ≤ xs.length := by
  have h1 : (xs.toFinset.filter (fun a => cnt xs a = 1)).card ≤ xs.toFinset.card :=
    Finset.card_filter_le _ _
  exact h1.trans (List.toFinset_card_le xs)

theorem csCoverage_eq (xs : List α) : csCoverage (mkData xs) = coverage xs := by
  unfold csCoverage coverage
  have h1 := countEq_mkData xs 1
  simp only [Nat.cast_one] at h1
  rw [h1, mkData_N]
  simp only [Nat.cast_inj]
  split <;> simp_all

theorem coverage_pos {xs : List α} (h : xs ≠ []) : 0 < coverage xs := by
  unfold coverage
  have hN := length_pos_real h
  rw [sub_pos, div_lt_one hN]
  split
  · linarith
  · rename_i hne
    exact_mod_cast lt_of_le_of_ne (occurring_le xs) hne

theorem coverage_le_one {xs : List α} (h : xs ≠ []) : coverage xs ≤ 1 := by
  unfold coverage
  have hN := length_pos_real h
  have h1 : (1:ℝ) ≤ xs.length := by exact_mod_cast List.length_pos_iff.2 h
  rw [sub_le_self_iff]
  apply div_nonneg _ hN.le
  split
  · linarith
  · positivity

theorem incl_pos {xs : List α} (h : xs ≠ []) {a : α} (ha : a ∈ xs) :
    0 < 1 - (1 - coverage xs * freq xs a) ^ xs.length := by
  have h1 : 0 < coverage xs * freq xs a := mul_pos (coverage_pos h) (freq_pos ha)
  have h2 : coverage xs * freq xs a ≤ 1 :=
    mul_le_one₀ (coverage_le_one h) (freq_nonneg xs a) (freq_le_one xs a)
  have := pow_lt_one₀ (by linarith : 0 ≤ 1 - coverage xs * freq xs a) (by linarith)
    (List.length_pos_iff.2 h).ne'
  linarith

theorem incl_le_one {xs : List α} (h : xs ≠ []) (a : α) :
    1 - (1 - coverage xs * freq xs a) ^ xs.length ≤ 1 := by
  have h2 : coverage xs * freq xs a ≤ 1 :=
    mul_le_one₀ (coverage_le_one h) (freq_nonneg xs a) (freq_le_one xs a)
  have := pow_nonneg (by linarith : 0 ≤ 1 - coverage xs * freq xs a) xs.length
  linarith

theorem chaoShenSimple_ok {xs : List α} (h : xs ≠ []) {b : Base} (hb : b.Valid) :
    chaoShenSimple b (mkData xs) = .ok (chaoShen xs / b.ln) := by
  unfold chaoShenSimple
  dsimp only
  rw [csCoverage_eq, mkData_probabilities, mapM_map', mkData_N, Int.toNat_natCast]
  rw [mapM_ok (g := fun a => (coverage xs * freq xs a) * Real.log (coverage xs * freq xs a) /
      (1 - (1 - coverage xs * freq xs a) ^ xs.length))]
  · simp only [bind, Except.bind, scaleBase_ok hb, sum_npUnique']
    rfl
  · intro a ha
    have ha' := mem_npUnique.1 ha
    simp only [npLog_ok (mul_pos (coverage_pos h) (freq_pos ha')), bind, Except.bind,
      npDiv_ok (incl_pos h ha').ne']

end

end Verif
