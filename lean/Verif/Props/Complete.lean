import Verif.Props.Bias
import Verif.Lemmas.TE2

/-!
# C13, C17, C19: complete description, constant variables included

`IsConst c`: all samples of the variable are equal.
-/

namespace Verif

open Spec

/-- all samples are equal -/
def IsConst (c : List Int) : Prop := ∀ x ∈ c, ∀ y ∈ c, x = y

open Classical in
/-- **C13** The value for every number of variables: the total correlation, but 0 as soon as one of three or more variables is constant.
So it is the total correlation exactly if there are two variables, none is constant, or the total correlation is 0. -/
theorem C13_total_correlation_iff (data : List (List Int)) (N : Nat) (hN : 0 < N) (h2 : 2 ≤ data.length)
    (hl : ∀ c ∈ data, c.length = N) (hov : N ^ data.length < 2 ^ 64) (b : Base) (hb : b.Std) :
    ∃ v, discreteMI (.all1D data) (some 0) b = .ok v ∧
      v = (if 3 ≤ data.length ∧ ∃ c ∈ data, IsConst c then 0 else Spec.totalCorrelation N data / b.ln) ∧
      (v = Spec.totalCorrelation N data / b.ln ↔
        data.length = 2 ∨ (∀ c ∈ data, ¬ IsConst c) ∨ Spec.totalCorrelation N data = 0) := by
  have hln := hb.ln_pos
  by_cases hd : data.length = 2
  · obtain ⟨xs, ys, rfl⟩ := List.length_eq_two.1 hd
    have hx : xs.length = N := hl xs (by simp)
    have hxy : xs.length = ys.length := by rw [hx, hl ys (by simp)]
    subst hx
    refine ⟨Spec.totalCorrelation xs.length [xs, ys] / b.ln, ?_, by simp, by simp⟩
    rw [discreteMI_pair hxy, tc_pair xs ys hxy]
    exact mi2dInt_std xs ys hxy (List.length_pos_iff.1 hN) (pow_bound hN (by simp) hov) hb
  · have h3 : 3 ≤ data.length := by omega
    by_cases hc : ∃ c ∈ data, IsConst c
    · refine ⟨0, C13_constant_variable_returns_zero data N hN h3 hl hc b, by rw [if_pos ⟨h3, hc⟩], ?_⟩
      constructor
      · intro h
        right; right
        rcases div_eq_zero_iff.1 h.symm with h | h
        · exact h
        · exact absurd h hln.ne'
      · rintro (h | h | h)
        · exact absurd h hd
        · obtain ⟨c, hcm, hcc⟩ := hc
          exact absurd hcc (h c hcm)
        · rw [h, zero_div]
    · have hc' : ∀ c ∈ data, ¬ IsConst c := fun c hcm h => hc ⟨c, hcm, h⟩
      refine ⟨_, C13_mi_is_total_correlation data N hN h2 hl hc' hov b hb, by rw [if_neg (fun h => hc h.2)], ?_⟩
      exact ⟨fun _ => .inr (.inl hc'), fun _ => rfl⟩

example := C13_total_correlation_iff [[5, 7, 5], [0, 0, 1], [4, 4, 4]] 3 (by decide) (by decide) (by decide) (by decide) (.num 2)
  (by norm_num [Base.Std])

open Classical in
/-- **C17** The value for every number of variables: the conditional total correlation plus `(n − 2) H(Z)`, but 0 as soon as the
condition and one of the variables are constant. So it is the conditional total correlation exactly if there are two variables, or the
condition is constant and no variable is constant or the value is 0 anyway. -/
theorem C17_complete (data : List (List Int)) (z : List Int) (hN : 0 < z.length) (h2 : 2 ≤ data.length)
    (hl : ∀ c ∈ data, c.length = z.length) (hov : z.length ^ data.length < 2 ^ 64) (b : Base) (hb : b.Valid) :
    ∃ v, discreteCMI data (some (.arr1 z)) none b = .ok v ∧
      v = (if IsConst z ∧ ∃ c ∈ data, IsConst c then 0
        else (Spec.condTotalCorrelation z.length data z + ((data.length : ℝ) - 2) * Spec.entropy z) / b.ln) ∧
      (v = Spec.condTotalCorrelation z.length data z / b.ln ↔
        data.length = 2 ∨ (IsConst z ∧ ((∀ c ∈ data, ¬ IsConst c) ∨ Spec.condTotalCorrelation z.length data z = 0))) := by
  have hln := hb.ln_ne
  by_cases hc : IsConst z ∧ ∃ c ∈ data, IsConst c
  · obtain ⟨hz, c, hcm, hcc⟩ := hc
    have hzne : z ≠ [] := List.length_pos_iff.1 hN
    have hcne : c ≠ [] := List.length_pos_iff.1 (by rw [hl c hcm]; exact hN)
    refine ⟨0, ?_, by rw [if_pos ⟨hz, c, hcm, hcc⟩], ?_⟩
    · rw [discreteCMI_eq (z := z) h2 hl rfl (Or.inr rfl)]
      refine cmiNdInt_const hcm ?_ _ _
      rw [npUnique_const hcne hcc, npUnique_const hzne hz]
    · constructor
      · intro h
        right
        refine ⟨hz, .inr ?_⟩
        rcases div_eq_zero_iff.1 h.symm with h | h
        · exact h
        · exact absurd h hln
      · rintro (h | ⟨_, h | h⟩)
        · obtain ⟨xs, ys, rfl⟩ := List.length_eq_two.1 h
          have hx : xs.length = z.length := hl xs (by simp)
          have hy : ys.length = z.length := hl ys (by simp)
          have hxy : xs.length = ys.length := by omega
          have : Spec.cmi xs ys z = 0 := by
            simp only [List.mem_cons, List.not_mem_nil, or_false] at hcm
            rcases hcm with rfl | rfl
            · exact cmi_const_left _ ys z hxy hy hcc
            · rw [cmi_comm xs _ z hxy hy]
              exact cmi_const_left _ xs z hxy.symm hx hcc
          rw [condTotalCorrelation_eq, ← hx, condInter_pair xs ys z hxy hy, this]
          simp
        · exact absurd hcc (h c hcm)
        · rw [h, zero_div]
  · have hc' : (∀ c ∈ data, ¬ ∀ x ∈ c, ∀ y ∈ c, x = y) ∨ ¬ ∀ x ∈ z, ∀ y ∈ z, x = y := by
      by_cases hz : IsConst z
      · exact .inl fun c hcm h => hc ⟨hz, c, hcm, h⟩
      · exact .inr hz
    refine ⟨_, C17_cmi_n_variables data z hN h2 hl hov hc' b hb, by rw [if_neg hc], ?_⟩
    rw [div_left_inj' hln, add_eq_left, mul_eq_zero, entropy_eq_zero_iff]
    have hcast : (data.length : ℝ) - 2 = 0 ↔ data.length = 2 := by
      rw [sub_eq_zero]
      exact_mod_cast Iff.rfl
    rw [hcast]
    constructor
    · rintro (h | h)
      · exact .inl h
      · exact .inr ⟨h, .inl fun c hcm hcc => hc ⟨h, c, hcm, hcc⟩⟩
    · rintro (h | h)
      · exact .inl h
      · exact .inr h.1

example := C17_complete [[5, 7, 5], [0, 0, 1], [4, 4, 4]] [2, 3, 3] (by decide) (by decide) (by decide) (by decide) (.num 2)
  (by norm_num [Base.Valid])

open Classical in
/-- **C19** Miller–Madow mutual information of any number of variables: the combination of the Miller–Madow entropies, but 0 as soon as
one of three or more variables is constant. -/
theorem C19_mm_mi_complete (data : List (List Int)) (N : Nat) (hN : 0 < N) (h2 : 2 ≤ data.length)
    (hl : ∀ c ∈ data, c.length = N) (hov : N ^ data.length < 2 ^ 64) (b : Base) (hb : b.Std) :
    ∃ hs hj, data.mapM (fun c => (millerMadowH b).entropy (.arr1 c)) = .ok hs ∧
      (millerMadowH b).entropy (.tup data) = .ok hj ∧
      discreteMI (.all1D data) (some 0) b true =
        .ok (if 3 ≤ data.length ∧ ∃ c ∈ data, IsConst c then 0 else hs.sum - hj) := by
  by_cases hd : data.length = 2
  · obtain ⟨xs, ys, rfl⟩ := List.length_eq_two.1 hd
    have hx : xs.length = N := hl xs (by simp)
    have hxy : xs.length = ys.length := by rw [hx, hl ys (by simp)]
    have hov' : xs.length < 2 ^ 32 := by
      rw [hx]
      have : N ^ 2 < (2 ^ 32) ^ 2 := by rw [← pow_mul]; simpa using hov
      exact lt_of_pow_lt_pow_left₀ 2 (by norm_num) this
    obtain ⟨a, c, j, h1, h2', h3, h4⟩ := C19_mm_mi_two_variables xs ys hxy (List.length_pos_iff.1 (by omega)) hov' b hb
    refine ⟨[a, c], j, ?_, h3, ?_⟩
    · simp only [List.mapM_cons, List.mapM_nil, h1, h2', bind, Except.bind, pure, Except.pure]
    · rw [h4]
      simp
  · have h3 : 3 ≤ data.length := by omega
    by_cases hc : ∃ c ∈ data, IsConst c
    · have hcne : ∀ c ∈ data, c ≠ [] := by
        rintro c hcm rfl
        have := hl _ hcm
        simp at this; omega
      refine ⟨data.map (fun c => millerMadow c / b.ln), _, mapM_ok _ fun c hcm => (HEst.entropy_arr1 _ (hcne c hcm)).trans
        (mmSimple_ok c hb.valid), mm_tup hN (by rintro rfl; simp at h3) hl hb.valid, ?_⟩
      rw [if_pos ⟨h3, hc⟩, discreteMI_many h3 hl]
      obtain ⟨c, hcm, hcc⟩ := hc
      exact miNdInt_const hN hl hcm hcc _ _
    · obtain ⟨hs, hj, e1, e2, e3⟩ := C19_mm_mi_n_variables data N hN h3 hl (fun c hcm h => hc ⟨c, hcm, h⟩) hov b hb
      exact ⟨hs, hj, e1, e2, by rw [e3, if_neg (fun h => hc h.2)]⟩

example := C19_mm_mi_complete [[5, 7, 5], [0, 0, 1], [4, 4, 4]] 3 (by decide) (by decide) (by decide) (by decide) (.num 2)
  (by norm_num [Base.Std])

theorem mm_rows_pair {us z : List Int} (h : us.length = z.length) : millerMadow (Spec.rows z.length [us, z]) =
    entropy (us.zip z) + (((us.zip z).toFinset.card : ℝ) - 1) / (2 * z.length) := by
  unfold millerMadow
  rw [← h, card_rows_pair us z h]
  have e := tc_pair us z h
  rw [Spec.totalCorrelation, mi_eq_entropies us z h] at e
  simp only [List.map_cons, List.map_nil, List.sum_cons, List.sum_nil, add_zero] at e
  have : (Spec.rows us.length [us, z]).length = us.length := by simp [Spec.rows]
  rw [this]
  linarith

theorem mm_rows_all {data : List (List Int)} {z : List Int} : millerMadow (Spec.rows z.length (data ++ [z])) =
    entropy ((Spec.rows z.length data).zip z) + ((((Spec.rows z.length data).zip z).toFinset.card : ℝ) - 1) / (2 * z.length) := by
  unfold millerMadow
  have hlen : (Spec.rows z.length (data ++ [z])).length = z.length := by simp [Spec.rows]
  have key : ∀ u v : Nat, Spec.row (data ++ [z]) u = Spec.row (data ++ [z]) v ↔
      (Spec.row data u, z.getD u default) = (Spec.row data v, z.getD v default) := by
    intro u v
    simp only [Spec.row, List.map_append, List.map_cons, List.map_nil, Prod.mk.injEq]
    rw [append_eq_iff (by simp)]
    simp
  rw [hlen, rows_zip_range _ _ _ rfl]
  congr 1
  · unfold Spec.rows
    exact entropy_map_congr _ _ _ fun u _ v _ => key u v
  · congr 3
    unfold Spec.rows
    exact card_map_congr _ _ _ fun u _ v _ => key u v

open Classical in
/-- **C19** Miller–Madow conditional mutual information of any number of variables: `Σ H(X_i,Z) − H(X_1,…,X_n,Z) − H(Z)` of the
Miller–Madow entropies, but 0 as soon as the condition and one of the variables are constant. -/
theorem C19_mm_cmi_complete (data : List (List Int)) (z : List Int) (hN : 0 < z.length) (h2 : 2 ≤ data.length)
    (hl : ∀ c ∈ data, c.length = z.length) (hov : z.length ^ data.length < 2 ^ 64) (b : Base) (hb : b.Valid) :
    ∃ hs hj hz, data.mapM (fun c => (millerMadowH b).entropy (.tup [c, z])) = .ok hs ∧
      (millerMadowH b).entropy (.tup (data ++ [z])) = .ok hj ∧ (millerMadowH b).entropy (.arr1 z) = .ok hz ∧
      discreteCMI data (some (.arr1 z)) none b true =
        .ok (if IsConst z ∧ ∃ c ∈ data, IsConst c then 0 else hs.sum - hj - hz) := by
  have hln := hb.ln_ne
  have hzne : z ≠ [] := List.length_pos_iff.1 hN
  have hne : data ≠ [] := by rintro rfl; simp at h2
  have hN' : (0:ℝ) < z.length := by exact_mod_cast hN
  have hr : condReduce true (.arr1 z) = .ok z := rfl
  refine ⟨data.map (fun c => millerMadow (Spec.rows z.length [c, z]) / b.ln), _, _,
    mapM_ok _ fun c hcm => mm_tup hN (by simp) (by simp [hl c hcm]) hb,
    mm_tup hN (by simp) (fun c hc => ?_) hb, (HEst.entropy_arr1 _ hzne).trans (mmSimple_ok z hb), ?_⟩
  · simp only [List.mem_append, List.mem_cons, List.not_mem_nil, or_false] at hc
    rcases hc with hc | rfl
    exacts [hl c hc, rfl]
  · rw [discreteCMI_eq h2 hl hr (Or.inr rfl)]
    by_cases hc : IsConst z ∧ ∃ c ∈ data, IsConst c
    · rw [if_pos hc]
      obtain ⟨hz, c, hcm, hcc⟩ := hc
      have hcne : c ≠ [] := List.length_pos_iff.1 (by rw [hl c hcm]; exact hN)
      refine cmiNdInt_const hcm ?_ _ _
      rw [npUnique_const hcne hcc, npUnique_const hzne hz]
    · rw [if_neg hc, cmiNdInt_ok data z z.length hN hne hl rfl ?_ hov (pow_bound hN h2 hov) hb, addCorr_some hb _ _ _ _ _ hN.ne']
      · simp only [npUnique_length]
        congr 1
        rw [sum_map_div', ← sub_div, ← sub_div, ← add_div]
        congr 1
        have e : (data.map (fun c => millerMadow (Spec.rows z.length [c, z]))).sum =
            (data.map (fun c => entropy (c.zip z))).sum +
              (((data.map (fun c => (c.zip z).toFinset.card)).sum : ℕ) - (data.length : ℝ)) / (2 * z.length) := by
          clear h2 hov hne hc
          induction data with
          | nil => simp
          | cons c r ih =>
            simp only [List.map_cons, List.sum_cons, List.length_cons]
            rw [ih (fun c hc => hl c (by simp [hc])), mm_rows_pair (hl c (by simp))]
            push_cast
            field_simp
            ring
        rw [e, mm_rows_all, condInter, millerMadow, List.length_map]
        field_simp
        ring
      · intro c hcm h1
        obtain ⟨k1, k2⟩ := const_of_mul_one h1
        exact hc ⟨k2, c, hcm, k1⟩

/-- cases that satisfy the hypotheses: three variables, one of them constant, and a condition -/
example : (∀ c ∈ [[0, 1, 1], [2, 2, 2], [0, 1, 0]], (c : List Int).length = ([0, 0, 1] : List Int).length) ∧
    ([0, 0, 1] : List Int).length ^ 3 < 2 ^ 64 ∧ IsConst [2, 2, 2] ∧ ¬ IsConst [0, 0, 1] := by
  unfold IsConst
  decide

end Verif
