import Verif.Lemmas.Bias3
import Mathlib.Analysis.Convex.Jensen

/-! # Helper lemmas: shrinkage and Bayesian estimators, entropy of a probability list -/

namespace Verif

open Spec

/-- Gibbs: a positive probability list has entropy at most the logarithm of its length -/
theorem entropyOf_le_log {ps : List ℝ} (hp : ∀ p ∈ ps, 0 < p) (hs : ps.sum = 1) :
    entropyOf ps ≤ Real.log ps.length := by
  have hne : ps ≠ [] := by rintro rfl; simp at hs
  have hK : (0:ℝ) < ps.length := by exact_mod_cast List.length_pos_iff.2 hne
  have key : ∀ l : List ℝ, (∀ p ∈ l, 0 < p) →
      - (l.map (fun p => p * Real.log p)).sum ≤ l.length / ps.length - l.sum + l.sum * Real.log ps.length := by
    intro l
    induction l with
    | nil => intro _; simp
    | cons p l ih =>
      intro h
      have hp := h p (by simp)
      have ih := ih (fun q hq => h q (by simp [hq]))
      have h1 := Real.log_le_sub_one_of_pos (show 0 < 1 / (ps.length * p) by positivity)
      rw [one_div, Real.log_inv, Real.log_mul hK.ne' hp.ne'] at h1
      have h2 : p * (-(Real.log ps.length + Real.log p)) ≤ p * (((ps.length : ℝ) * p)⁻¹ - 1) :=
        mul_le_mul_of_nonneg_left h1 hp.le
      have h3 : p * (((ps.length : ℝ) * p)⁻¹ - 1) = 1 / ps.length - p := by field_simp
      simp only [List.map_cons, List.sum_cons, List.length_cons, Nat.cast_add, Nat.cast_one, add_div]
      nlinarith
  have := key ps hp
  unfold entropyOf
  rw [hs, div_self hK.ne'] at this
  linarith

theorem entropyOf_nonneg {ps : List ℝ} (hp : ∀ p ∈ ps, 0 < p ∧ p ≤ 1) : 0 ≤ entropyOf ps := by
  unfold entropyOf
  rw [neg_nonneg]
  have : ∀ x ∈ ps.map (fun p => -(p * Real.log p)), (0:ℝ) ≤ x := by
    intro x hx
    obtain ⟨p, hpm, rfl⟩ := List.mem_map.1 hx
    obtain ⟨h0, h1⟩ := hp p hpm
    have := Real.log_nonpos h0.le h1
    nlinarith
  have := List.sum_nonneg this
  rw [sum_map_neg'] at this
  linarith

theorem le_one_of_sum {ps : List ℝ} (hp : ∀ p ∈ ps, 0 < p) (hs : ps.sum = 1) : ∀ p ∈ ps, p ≤ 1 := by
  intro p hpm
  rw [← hs]
  exact List.single_le_sum (fun q hq => (hp q hq).le) p hpm

/-- mixing with the uniform distribution does not decrease entropy -/
theorem entropyOf_mix {ps : List ℝ} (hp : ∀ p ∈ ps, 0 < p) (hs : ps.sum = 1) {l : ℝ} (h0 : 0 ≤ l)
    (h1 : l ≤ 1) :
    entropyOf ps ≤ entropyOf (ps.map (fun p => l * (1 / (ps.length : ℝ)) + (1 - l) * p)) := by
  have hne : ps ≠ [] := by rintro rfl; simp at hs
  have hK : (0:ℝ) < ps.length := by exact_mod_cast List.length_pos_iff.2 hne
  set t : ℝ := 1 / ps.length with ht
  have htp : 0 < t := by positivity
  have hc := Real.concaveOn_negMulLog
  have step : ∀ p ∈ ps, l * Real.negMulLog t + (1 - l) * Real.negMulLog p ≤
      Real.negMulLog (l * t + (1 - l) * p) := by
    intro p hpm
    have := hc.2 (Set.mem_Ici.2 htp.le) (Set.mem_Ici.2 (hp p hpm).le) h0 (sub_nonneg.2 h1) (by ring)
    simpa using this
  have e : ∀ qs : List ℝ, entropyOf qs = (qs.map Real.negMulLog).sum := by
    intro qs
    unfold entropyOf
    rw [← sum_map_neg']
    congr 1
    refine List.map_congr_left fun q _ => ?_
    simp [Real.negMulLog]
  have h2 : (ps.map (fun p => l * Real.negMulLog t + (1 - l) * Real.negMulLog p)).sum ≤
      (ps.map (fun p => Real.negMulLog (l * t + (1 - l) * p))).sum :=
    List.sum_le_sum step
  have h3 : (ps.map (fun p => l * Real.negMulLog t + (1 - l) * Real.negMulLog p)).sum =
      l * Real.log ps.length + (1 - l) * entropyOf ps := by
    rw [sum_map_add', sum_map_mul' ps Real.negMulLog, ← e]
    simp only [List.map_const', List.sum_replicate, nsmul_eq_mul, Real.negMulLog, ht]
    rw [one_div, Real.log_inv]
    field_simp
  have h4 := entropyOf_le_log hp hs
  rw [e (ps.map _), List.map_map]
  have h5 : (ps.map (Real.negMulLog ∘ fun p => l * t + (1 - l) * p)).sum =
      (ps.map (fun p => Real.negMulLog (l * t + (1 - l) * p))).sum := rfl
  rw [h5]
  rw [h3] at h2
  nlinarith

section
variable {α : Type} [LinearOrder α]

/-- relative frequencies in the order of the distinct symbols -/
noncomputable def freqs (xs : List α) : List ℝ := (npUnique xs).map (freq xs)

theorem freqs_pos (xs : List α) : ∀ p ∈ freqs xs, 0 < p := by
  intro p hp
  obtain ⟨a, ha, rfl⟩ := List.mem_map.1 hp
  exact freq_pos (mem_npUnique.1 ha)

theorem freqs_sum {xs : List α} (h : xs ≠ []) : (freqs xs).sum = 1 := by
  unfold freqs; rw [sum_npUnique', sum_freq h]

theorem freqs_length (xs : List α) : (freqs xs).length = xs.toFinset.card := by
  unfold freqs; rw [List.length_map, npUnique_length]

theorem entropyOf_freqs (xs : List α) : entropyOf (freqs xs) = entropy xs := by
  unfold entropyOf freqs entropy
  rw [List.map_map, sum_npUnique']; rfl

theorem shrinkLambda_mem (N : Int) (u : List ℝ) (t : ℝ) :
    0 ≤ shrinkLambda N u t ∧ shrinkLambda N u t ≤ 1 := by
  unfold shrinkLambda
  simp only
  split_ifs <;> constructor <;> linarith

/-- the shrinkage weight the code uses on a sample -/
noncomputable def lambdaOf (xs : List α) : ℝ :=
  if (mkData xs).N = 0 ∨ (mkData xs).N = 1 then 1
  else shrinkLambda (mkData xs).N (freqs xs) (1 / (xs.toFinset.card : ℝ))

theorem lambdaOf_mem (xs : List α) : 0 ≤ lambdaOf xs ∧ lambdaOf xs ≤ 1 := by
  unfold lambdaOf
  split_ifs
  · norm_num
  · exact shrinkLambda_mem _ _ _

theorem shrinkProbs_eq (xs : List α) : shrinkProbs (mkData xs) =
    (freqs xs).map (fun p => lambdaOf xs * (1 / (xs.toFinset.card : ℝ)) + (1 - lambdaOf xs) * p) := by
  unfold shrinkProbs
  simp only [mkData_K, mkData_probabilities]
  rfl

theorem shrinkProbs_pos {xs : List α} (h : xs ≠ []) : ∀ p ∈ shrinkProbs (mkData xs), 0 < p := by
  intro p hp
  rw [shrinkProbs_eq] at hp
  obtain ⟨q, hq, rfl⟩ := List.mem_map.1 hp
  have hq := freqs_pos xs q hq
  obtain ⟨h0, h1⟩ := lambdaOf_mem xs
  have hK : (0:ℝ) < xs.toFinset.card := by
    rw [← freqs_length]
    have := freqs_sum h
    exact_mod_cast List.length_pos_iff.2 (by rintro h0; rw [h0] at this; simp at this)
  have ht : (0:ℝ) < 1 / (xs.toFinset.card : ℝ) := by positivity
  rcases eq_or_lt_of_le h1 with h1 | h1
  · rw [h1]; simpa using hK
  · have := mul_nonneg h0 ht.le
    have := mul_pos (sub_pos.2 h1) hq
    linarith

theorem shrinkProbs_sum {xs : List α} (h : xs ≠ []) : (shrinkProbs (mkData xs)).sum = 1 := by
  rw [shrinkProbs_eq, sum_map_add', sum_map_mul' (freqs xs) (fun p => p)]
  have hs := freqs_sum h
  have hK : (xs.toFinset.card : ℝ) ≠ 0 := by
    rw [← freqs_length]
    have : freqs xs ≠ [] := by rintro h0; rw [h0] at hs; simp at hs
    simpa using this
  simp only [List.map_const', List.sum_replicate, nsmul_eq_mul, freqs_length, List.map_id']
  rw [hs]
  field_simp
  ring

theorem sum_plog_ok {ps : List ℝ} (hp : ∀ p ∈ ps, 0 < p) {b : Base} (hb : b.Valid) :
    (do
      let terms ← ps.mapM (fun p => do
        let l ← logBase b p
        pure (p * l))
      pure (- terms.sum) : Except Exc ℝ) = .ok (entropyOf ps / b.ln) := by
  rw [mapM_ok (g := fun p => p * Real.log p / b.ln)]
  · simp only [bind, Except.bind, pure, Except.pure, sum_map_div', entropyOf, neg_div]
  · intro p hpm
    simp only [logBase_ok hb (hp p hpm), bind, Except.bind, pure, Except.pure, mul_div_assoc]

theorem shrinkSimple_ok {xs : List α} (h : xs ≠ []) {b : Base} (hb : b.Valid) :
    shrinkSimple b (mkData xs) = .ok (entropyOf (shrinkProbs (mkData xs)) / b.ln) :=
  sum_plog_ok (shrinkProbs_pos h) hb

theorem shrinkLocal_ok {xs : List α} (h : xs ≠ []) {b : Base} (hb : b.Valid) :
    shrinkLocal b (mkData xs) = .ok (xs.map (fun a =>
      - (Real.log (lambdaOf xs * (1 / (xs.toFinset.card : ℝ)) + (1 - lambdaOf xs) * freq xs a) / b.ln))) := by
  unfold shrinkLocal
  simp only [mkData_samples, bind, Except.bind]
  refine mapM_ok xs fun a ha => ?_
  have hg : dictGet ((mkData xs).uniq.zip (shrinkProbs (mkData xs))) a =
      .ok (lambdaOf xs * (1 / (xs.toFinset.card : ℝ)) + (1 - lambdaOf xs) * freq xs a) := by
    rw [shrinkProbs_eq, mkData_uniq, freqs, List.map_map]
    exact dictGet_zip (npUnique xs) _ (mem_npUnique.2 ha)
  have hp : 0 < lambdaOf xs * (1 / (xs.toFinset.card : ℝ)) + (1 - lambdaOf xs) * freq xs a := by
    refine shrinkProbs_pos h _ ?_
    rw [shrinkProbs_eq]
    exact List.mem_map.2 ⟨freq xs a, List.mem_map.2 ⟨a, mem_npUnique.2 ha, rfl⟩, rfl⟩
  simp only [hg, logBase_ok hb hp, pure, Except.pure]

/-! ### Bayes -/

/-- Bayesian probabilities for a valid concentration parameter -/
noncomputable def bayesP (xs : List α) (K a : ℝ) : List ℝ :=
  (npUnique xs).map (fun s => ((cnt xs s : ℝ) + a) / ((xs.length : ℝ) + K * a))

/-- support size in effect: the given one or the observed one -/
noncomputable def kEff (xs : List α) (kp : Option Nat) : ℝ :=
  match kp with
  | some k => (k : ℝ)
  | none => (xs.toFinset.card : ℝ)

theorem kEff_nonneg (xs : List α) (kp : Option Nat) : 0 ≤ kEff xs kp := by
  unfold kEff; cases kp <;> positivity

theorem bayesK_eq (xs : List α) (kp : Option Nat) : bayesK kp (mkData xs) = kEff xs kp := by
  unfold bayesK kEff; rw [mkData_K]; cases kp <;> rfl

theorem bayesProbs_eq {xs : List α} (h : xs ≠ []) (alpha : AlphaArg) (kp : Option Nat) {a : ℝ}
    (ha : getAlpha alpha (kEff xs kp) xs.length = .ok a) (h0 : 0 ≤ a) :
    bayesProbs alpha kp (mkData xs) = .ok (bayesP xs (kEff xs kp) a) := by
  unfold bayesProbs
  dsimp only
  rw [bayesK_eq, mkData_N]
  simp only [Int.cast_natCast, ha, bind, Except.bind]
  rw [mkData_counts, mapM_map']
  refine mapM_ok _ fun s _ => ?_
  have hN := length_pos_real h
  have : (xs.length : ℝ) + kEff xs kp * a ≠ 0 := by
    have := mul_nonneg (kEff_nonneg xs kp) h0
    positivity
  rw [npDiv_ok this]
  simp

theorem bayesP_pos {xs : List α} (h : xs ≠ []) {K a : ℝ} (hK : 0 ≤ K) (h0 : 0 ≤ a) :
    ∀ p ∈ bayesP xs K a, 0 < p := by
  intro p hp
  obtain ⟨s, hs, rfl⟩ := List.mem_map.1 hp
  have hc : (0:ℝ) < cnt xs s := by exact_mod_cast cnt_pos_iff.2 (mem_npUnique.1 hs)
  have hN := length_pos_real h
  have := mul_nonneg hK h0
  positivity

theorem bayesP_sum (xs : List α) (K a : ℝ) :
    (bayesP xs K a).sum = ((xs.length : ℝ) + xs.toFinset.card * a) / ((xs.length : ℝ) + K * a) := by
  unfold bayesP
  rw [sum_npUnique', ← Finset.sum_div, Finset.sum_add_distrib, sum_count]
  simp

theorem bayesP_length (xs : List α) (K a : ℝ) : (bayesP xs K a).length = xs.toFinset.card := by
  unfold bayesP; rw [List.length_map, npUnique_length]

end

end Verif
