import Verif.Props.KlEntropy2

/-!
# Lemmas on the nearest-neighbour Rényi/Tsallis components
-/

namespace Verif

open Spec

theorem ballVolume_two {d : Nat} (hd : 0 < d) {r : ℝ} (hr : 0 ≤ r) :
    ballVolume d (some 2) r = Real.pi ^ ((d : ℝ) / 2) / Real.Gamma ((d : ℝ) / 2 + 1) * r ^ d := by
  have hp : (PNorm.num 2).ok = true := by simp [PNorm.ok]
  have h1 : ballVolume d (some 2) 1 = Real.pi ^ ((d : ℝ) / 2) / Real.Gamma ((d : ℝ) / 2 + 1) := by
    change (MeasureTheory.volume (lpBall d 2 1)).toReal = _
    rw [C50_renyi_volume d hd, ENNReal.toReal_ofReal]
    have : 0 < Real.Gamma ((d : ℝ) / 2 + 1) := Real.Gamma_pos_of_pos (by positivity)
    positivity
  have h2 := ballVolume_scale (d := d) hd (p := .num 2) hp (a := r) (r := 1) hr (by norm_num)
  rw [mul_one] at h2
  rw [← h1, mul_comm]
  exact h2

theorem ballConst_pos (d : Nat) : 0 < Real.pi ^ ((d : ℝ) / 2) / Real.Gamma ((d : ℝ) / 2 + 1) := by
  have : 0 < Real.Gamma ((d : ℝ) / 2 + 1) := Real.Gamma_pos_of_pos (by positivity)
  positivity

theorem lpsC_pos {k : Nat} (hk : 0 < k) {q : ℝ} (hq : q < k + 1) : 0 < lpsC k q := by
  have h1 : 0 < Real.Gamma k := Real.Gamma_pos_of_pos (by exact_mod_cast hk)
  have h2 : 0 < Real.Gamma (k + 1 - q) := Real.Gamma_pos_of_pos (by linarith)
  unfold lpsC
  positivity

open Classical in
theorem sum_filter_pos (L : List ℝ) (hL : ∀ r ∈ L, 0 ≤ r) (f : ℝ → ℝ) :
    ((L.filter (fun r => decide (0 < r))).map f).sum = (L.map (fun r => if r = 0 then 0 else f r)).sum := by
  induction L with
  | nil => rfl
  | cons r L ih =>
    have ih := ih fun x hx => hL x (by simp [hx])
    rcases (hL r (by simp)).eq_or_lt with h | h
    · subst h
      simpa using ih
    · rw [List.filter_cons_of_pos (by simpa using h), List.map_cons, List.sum_cons, ih, List.map_cons, List.sum_cons, if_neg h.ne']

theorem expFamilyIq_ok {k : Nat} (hk : 0 < k) {q : ℝ} (hq : q < k + 1) {L : List ℝ} (hne : L ≠ [])
    (hL : ∀ r ∈ L, 0 ≤ r) {N : ℝ} (hN : 0 ≤ N) {d : Nat} (hd : 0 < d) :
    expFamilyIq k q (Real.pi ^ ((d : ℝ) / 2) / Real.Gamma ((d : ℝ) / 2 + 1)) L N d = .ok (lpsI N k d q L) := by
  have h1 : 0 < Real.Gamma k := Real.Gamma_pos_of_pos (by exact_mod_cast hk)
  have h2 : 0 < Real.Gamma (k + 1 - q) := Real.Gamma_pos_of_pos (by linarith)
  have hV := ballConst_pos d
  have hC := lpsC_pos hk hq
  unfold expFamilyIq
  rw [if_neg hq.ne]
  simp only
  rw [if_neg (not_le.2 (div_pos h1 h2)), if_neg (by simpa using hne), sum_filter_pos _ hL]
  unfold lpsI mean
  rw [List.length_map, ← List.sum_map_mul_left]
  congr 3
  refine List.map_congr_left fun r hr => ?_
  have h0 := hL r hr
  by_cases hz : r = 0
  · simp [hz]
  · rw [if_neg hz, if_neg hz, ballVolume_two hd h0, ← Real.mul_rpow (by unfold lpsC at hC; positivity) (by positivity)]
    congr 1
    unfold lpsC
    ring

theorem lpsI_nonneg (N : ℝ) (k d : Nat) (q : ℝ) (L : List ℝ) (hk : 0 < k) (hq : q < k + 1) (hN : 0 ≤ N) : 0 ≤ lpsI N k d q L := by
  have hC := lpsC_pos hk hq
  unfold lpsI mean
  refine div_nonneg (List.sum_nonneg ?_) (by positivity)
  intro x hx
  obtain ⟨r, _, rfl⟩ := List.mem_map.1 hx
  split_ifs
  · rfl
  · refine Real.rpow_nonneg (mul_nonneg (mul_nonneg hN hC.le) ?_) _
    unfold ballVolume
    exact ENNReal.toReal_nonneg

theorem lpsI_pos {N : ℝ} {k d : Nat} {q : ℝ} {L : List ℝ} (hk : 0 < k) (hq : q < k + 1) (hN : 0 < N) (hd : 0 < d)
    (hL : ∀ r ∈ L, 0 ≤ r) (h : ∃ r ∈ L, r ≠ 0) : 0 < lpsI N k d q L := by
  have hC := lpsC_pos hk hq
  have hp : (PNorm.num 2).ok = true := by simp [PNorm.ok]
  obtain ⟨r, hr, h0⟩ := h
  have hr0 : 0 < r := lt_of_le_of_ne (hL r hr) (Ne.symm h0)
  have hv : 0 < ballVolume d (some 2) r := ballVolume_pos (p := .num 2) hd hp hr0
  unfold lpsI mean
  have hlen : 0 < L.length := List.length_pos_of_mem hr
  refine div_pos ?_ (by rw [List.length_map]; exact_mod_cast hlen)
  have hnn : ∀ x ∈ L.map (fun ρ => if ρ = 0 then 0 else (N * lpsC k q * ballVolume d (some 2) ρ) ^ (1 - q)), 0 ≤ x := by
    intro x hx
    obtain ⟨r, _, rfl⟩ := List.mem_map.1 hx
    split_ifs
    · rfl
    · refine Real.rpow_nonneg (mul_nonneg (mul_nonneg hN.le hC.le) ?_) _
      unfold ballVolume
      exact ENNReal.toReal_nonneg
  have hx : (N * lpsC k q * ballVolume d (some 2) r) ^ (1 - q) ∈
      L.map (fun ρ => if ρ = 0 then 0 else (N * lpsC k q * ballVolume d (some 2) ρ) ^ (1 - q)) :=
    List.mem_map.2 ⟨r, hr, by simp only [if_neg h0]⟩
  exact lt_of_lt_of_le (by positivity) (List.single_le_sum hnn _ hx)

theorem lpsI_zero {N : ℝ} {k d : Nat} {q : ℝ} {L : List ℝ} (h : ∀ r ∈ L, r = 0) : lpsI N k d q L = 0 := by
  unfold lpsI mean
  have : L.map (fun ρ => if ρ = 0 then 0 else (N * lpsC k q * ballVolume d (some 2) ρ) ^ (1 - q)) = L.map (fun _ => 0) :=
    List.map_congr_left fun r hr => by rw [if_pos (h r hr)]
  rw [this]
  simp

theorem expFamilyI1_ok {k : Nat} (hk : 0 < k) {L : List ℝ} (hne : L ≠ [])
    (hL : ∀ r ∈ L, 0 ≤ r) {N : ℝ} (hN : 0 < N) {d : Nat} (hd : 0 < d) {b : Base} (hb : b.Valid) :
    expFamilyI1 k (Real.pi ^ ((d : ℝ) / 2) / Real.Gamma ((d : ℝ) / 2 + 1)) L N d b = .ok (lpsLog N k d L / b.ln) := by
  have hV := ballConst_pos d
  unfold expFamilyI1
  rw [npDigamma_nat _ hk]
  simp only [bind, Except.bind]
  have hz : ∀ r ∈ L, (0 < N * Real.exp (- psi k) * (Real.pi ^ ((d : ℝ) / 2) / Real.Gamma ((d : ℝ) / 2 + 1)) * r ^ d ↔ 0 < r) := by
    intro r hr
    have hA : 0 < N * Real.exp (- psi k) * (Real.pi ^ ((d : ℝ) / 2) / Real.Gamma ((d : ℝ) / 2 + 1)) := by positivity
    rw [mul_pos_iff_of_pos_left hA]
    constructor
    · intro h
      refine lt_of_le_of_ne (hL r hr) ?_
      rintro rfl
      rw [zero_pow hd.ne'] at h
      exact lt_irrefl _ h
    · intro h
      positivity
  rw [mapM_ok (g := fun z => Real.log z / b.ln) _ (fun z hzm => logBase_ok hb (of_decide_eq_true (List.mem_filter.1 hzm).2))]
  simp only
  rw [List.filter_map, List.map_map, List.length_map]
  have hf : L.filter ((fun z => @decide (0 < z) (Classical.propDecidable _)) ∘ fun r => N * Real.exp (- psi k) *
      (Real.pi ^ ((d : ℝ) / 2) / Real.Gamma ((d : ℝ) / 2 + 1)) * r ^ d) = L.filter (fun r => @decide (0 < r) (Classical.propDecidable _)) :=
    List.filter_congr fun r hr => by simp [hz r hr]
  rw [hf, sum_filter_pos _ hL]
  unfold npDiv
  have hlen : (L.length : ℝ) ≠ 0 := by
    have : 0 < L.length := List.length_pos_of_ne_nil hne
    exact_mod_cast this.ne'
  rw [if_neg hlen]
  unfold lpsLog mean
  rw [List.length_map, div_right_comm, div_eq_mul_inv _ b.ln, ← List.sum_map_mul_right]
  congr 3
  refine List.map_congr_left fun r hr => ?_
  by_cases h0 : r = 0
  · simp [h0]
  · rw [if_neg h0, if_neg h0, ballVolume_two hd (hL r hr)]
    simp only [Function.comp]
    rw [div_eq_mul_inv]
    congr 2
    ring

end Verif
