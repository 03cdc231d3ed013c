import Verif.Lemmas.Interaction
import Verif.Lemmas.Mutual

/-! # Helper lemmas: two-variable contingency-table mutual information -/

namespace Verif

open Spec

variable {α : Type} [LinearOrder α]

/-- mutual information in sample form -/
theorem mi_sample {β γ : Type} [DecidableEq β] [DecidableEq γ] (xs : List β) (ys : List γ)
    (h : xs.length = ys.length) (hne : xs ≠ []) :
    Spec.mi xs ys = ((xs.zip ys).map (fun w => Real.log (cnt (xs.zip ys) w)
      - Real.log ((cnt xs w.1 : ℝ) * (cnt ys w.2 : ℝ)) + Real.log xs.length)).sum / xs.length := by
  have hN : (0:ℝ) < xs.length := by
    have := List.length_pos_iff.2 hne; exact_mod_cast this
  have hl : (xs.zip ys).length = xs.length := by simp [h]
  unfold Spec.mi
  have k := sum_freq_mul (xs.zip ys) id (fun w =>
    Real.log (freq (xs.zip ys) w / (freq xs w.1 * freq ys w.2)))
  rw [List.map_id] at k
  refine k.trans ?_
  rw [hl]
  congr 2
  refine List.map_congr_left fun w hw => ?_
  have hm := List.of_mem_zip (a := w.1) (b := w.2) hw
  have h1 : (0:ℝ) < cnt xs w.1 := by exact_mod_cast cnt_pos_iff.2 hm.1
  have h2 : (0:ℝ) < cnt ys w.2 := by exact_mod_cast cnt_pos_iff.2 hm.2
  have h3 : (0:ℝ) < cnt (xs.zip ys) w := by exact_mod_cast cnt_pos_iff.2 hw
  unfold freq
  rw [id, hl, ← h, Real.log_div (by positivity) (by positivity), Real.log_div h3.ne' hN.ne',
    Real.log_mul (by positivity) (by positivity), Real.log_div h1.ne' hN.ne',
    Real.log_div h2.ne' hN.ne', Real.log_mul h1.ne' h2.ne']
  ring

theorem zip_inverse (xs ys : List α) :
    (npInverse xs).zip (npInverse ys) =
      (xs.zip ys).map (fun w => (npPos xs w.1, npPos ys w.2)) := by
  rw [npInverse, npInverse, List.zip_map]; rfl

theorem pos_pair_inj {xs ys : List α} {u v : α × α} (hu : u ∈ xs.zip ys) (hv : v ∈ xs.zip ys) :
    (npPos xs u.1, npPos ys u.2) = (npPos xs v.1, npPos ys v.2) ↔ u = v := by
  have a := List.of_mem_zip (a := u.1) (b := u.2) hu
  have b := List.of_mem_zip (a := v.1) (b := v.2) hv
  rw [Prod.mk.injEq, npPos_inj a.1 b.1, npPos_inj a.2 b.2, Prod.ext_iff]

theorem cnt_zip_inverse {xs ys : List α} {w : α × α} (hw : w ∈ xs.zip ys) :
    cnt ((npInverse xs).zip (npInverse ys)) (npPos xs w.1, npPos ys w.2) = cnt (xs.zip ys) w := by
  rw [zip_inverse, cnt_map, cnt]
  refine List.countP_congr fun u hu => ?_
  simp only [decide_eq_true_eq]
  exact pos_pair_inj hu hw

theorem card_zip_inverse (xs ys : List α) :
    ((npInverse xs).zip (npInverse ys)).toFinset.card = (xs.zip ys).toFinset.card := by
  rw [zip_inverse]
  have : ((xs.zip ys).map (fun w => (npPos xs w.1, npPos ys w.2))).toFinset =
      (xs.zip ys).toFinset.image (fun w => (npPos xs w.1, npPos ys w.2)) := by
    ext p; simp
  rw [this, Finset.card_image_of_injOn]
  intro u hu v hv he
  exact (pos_pair_inj (by simpa using hu) (by simpa using hv)).1 he

theorem margin_fst (xs ys : List α) (h : xs.length = ys.length) {a : α} (ha : a ∈ xs) :
    ((Coo.ofRows ((npInverse xs).zip (npInverse ys))).margin (fun r => r.1)
      (npUnique xs).length).getD (npPos xs a) 0 = cnt xs a := by
  rw [Coo.margin_getD _ _ _ _ (npPos_lt ha), zip_inverse, List.countP_map]
  conv_rhs => rw [← map_fst_zip' xs ys h, cnt_map]
  refine List.countP_congr fun u hu => ?_
  have hm := List.of_mem_zip (a := u.1) (b := u.2) hu
  simp only [Function.comp, decide_eq_true_eq]
  exact npPos_inj hm.1 ha

theorem margin_snd (xs ys : List α) (h : xs.length = ys.length) {a : α} (ha : a ∈ ys) :
    ((Coo.ofRows ((npInverse xs).zip (npInverse ys))).margin (fun r => r.2)
      (npUnique ys).length).getD (npPos ys a) 0 = cnt ys a := by
  rw [Coo.margin_getD _ _ _ _ (npPos_lt ha), zip_inverse, List.countP_map]
  conv_rhs => rw [← map_snd_zip' xs ys h, cnt_map]
  refine List.countP_congr fun u hu => ?_
  have hm := List.of_mem_zip (a := u.1) (b := u.2) hu
  simp only [Function.comp, decide_eq_true_eq]
  exact npPos_inj hm.2 ha

/-- the dense marginals add up to the sample size -/
theorem margin_sum {κ : Type} [DecidableEq κ] (rows : List κ) (f : κ → Nat) (size : Nat)
    (hf : ∀ r ∈ rows, f r < size) : ((Coo.ofRows rows).margin f size).sum = rows.length := by
  rw [Coo.margin]
  simp only [Coo.sumWhere_ofRows]
  induction rows with
  | nil => simp
  | cons r rows ih =>
    have h1 := ih (fun s hs => hf s (by simp [hs]))
    have hr := hf r (by simp)
    simp only [List.countP_cons, List.length_cons]
    have : ((List.range size).map (fun j => List.countP (fun r => decide (f r = j)) rows +
        if (decide (f r = j)) = true then 1 else 0)).sum =
        ((List.range size).map (fun j => List.countP (fun r => decide (f r = j)) rows)).sum +
        ((List.range size).map (fun j => if f r = j then 1 else 0)).sum := by
      rw [← List.sum_map_add]; simp
    rw [this, h1]
    congr 1
    rw [← List.sum_toFinset _ List.nodup_range]
    simp [hr]

theorem mi2dInt_ok (xs ys : List α) (h : xs.length = ys.length) (hne : xs ≠ [])
    (hov : xs.length ^ 2 < 2 ^ 64) {b : Base} (hb : b.Valid) (mm : Option Base) :
    mi2dInt (logBase b) xs ys mm =
      if (npUnique xs).length = 1 ∨ (npUnique ys).length = 1 then .ok 0
      else addCorr mm (fun base => millerMadowCorr [(npUnique xs).length, (npUnique ys).length]
        (xs.zip ys).toFinset.card xs.length base none) (max (Spec.mi xs ys / b.ln) 0) := by
  have hNn : 0 < xs.length := List.length_pos_iff.2 hne
  have hN : (0:ℝ) < xs.length := by exact_mod_cast hNn
  have hl : ((npInverse xs).zip (npInverse ys)).length = xs.length := by simp [h]
  unfold mi2dInt
  simp only [Coo.margin_length]
  rw [if_neg hNn.ne']
  split
  · rfl
  have hs1 : ((Coo.ofRows ((npInverse xs).zip (npInverse ys))).margin (fun r => r.1)
      (npUnique xs).length).sum = xs.length := by
    rw [margin_sum, hl]
    intro r hr
    rw [zip_inverse] at hr
    obtain ⟨w, hw, rfl⟩ := List.mem_map.1 hr
    exact npPos_lt (List.of_mem_zip (a := w.1) (b := w.2) hw).1
  have hs2 : ((Coo.ofRows ((npInverse xs).zip (npInverse ys))).margin (fun r => r.2)
      (npUnique ys).length).sum = xs.length := by
    rw [margin_sum, hl]
    intro r hr
    rw [zip_inverse] at hr
    obtain ⟨w, hw, rfl⟩ := List.mem_map.1 hr
    exact npPos_lt (List.of_mem_zip (a := w.1) (b := w.2) hw).2
  rw [hs1, hs2, Coo.total_ofRows, hl, Coo.vals_length, card_zip_inverse]
  set rows := (npInverse xs).zip (npInverse ys) with hrows
  rw [mapM_ok (g := fun e => (e.2 : ℝ) * ((fun r => (Real.log (cnt rows r)
      - Real.log (((((Coo.ofRows rows).margin (fun r => r.1) (npUnique xs).length).getD r.1 0 : ℕ) : ℝ)
        * ((((Coo.ofRows rows).margin (fun r => r.2) (npUnique ys).length).getD r.2 0 : ℕ) : ℝ))
      + Real.log xs.length) / xs.length / b.ln) e.1))]
  · simp only [bind, Except.bind]
    congr 1
    refine congrArg (fun v => max v 0) ?_
    refine (Coo.sum_cells rows (fun r => (Real.log (cnt rows r)
      - Real.log (((((Coo.ofRows rows).margin (fun r => r.1) (npUnique xs).length).getD r.1 0 : ℕ) : ℝ)
        * ((((Coo.ofRows rows).margin (fun r => r.2) (npUnique ys).length).getD r.2 0 : ℕ) : ℝ))
      + Real.log xs.length) / xs.length / b.ln)).trans ?_
    rw [mi_sample xs ys h hne]
    conv_lhs => rw [hrows, zip_inverse, ← zip_inverse xs ys, ← hrows]
    have hr2 : rows = (xs.zip ys).map (fun w => (npPos xs w.1, npPos ys w.2)) := zip_inverse xs ys
    conv_lhs =>
      arg 1
      arg 2
      rw [hr2]
    rw [List.map_map, ← sum_map_div', ← sum_map_div']
    congr 1
    refine List.map_congr_left fun w hw => ?_
    have hm := List.of_mem_zip (a := w.1) (b := w.2) hw
    simp only [Function.comp]
    rw [hrows, cnt_zip_inverse hw, margin_fst xs ys h hm.1, margin_snd xs ys h hm.2]
  · intro e he
    obtain ⟨h1, h2⟩ := Coo.mem_cells.1 he
    have hr2 : rows = (xs.zip ys).map (fun w => (npPos xs w.1, npPos ys w.2)) := zip_inverse xs ys
    have h1' := h1
    rw [hr2] at h1
    obtain ⟨w, hw, hr⟩ := List.mem_map.1 h1
    have hm := List.of_mem_zip (a := w.1) (b := w.2) hw
    have hv : (0:ℝ) < e.2 := by rw [h2]; exact_mod_cast cnt_pos_iff.2 h1'
    beta_reduce
    rw [← h2, ← hr]
    simp only []
    rw [hrows, margin_fst xs ys h hm.1, margin_snd xs ys h hm.2]
    have p1 : 0 < cnt xs w.1 := cnt_pos_iff.2 hm.1
    have p2 : 0 < cnt ys w.2 := cnt_pos_iff.2 hm.2
    have l1 := cnt_le_length xs w.1
    have l2 := cnt_le_length ys w.2
    have hlt : [cnt xs w.1, cnt ys w.2].prod < 2 ^ 64 := by
      refine lt_of_le_of_lt ?_ hov
      simp only [List.prod_cons, List.prod_nil, mul_one, pow_two]
      exact Nat.mul_le_mul l1 (h ▸ l2)
    rw [prodU64_eq_prod hlt]
    have hp : (0:ℝ) < (([cnt xs w.1, cnt ys w.2].prod : ℕ) : ℝ) := by
      simp only [List.prod_cons, List.prod_nil, mul_one]; exact_mod_cast Nat.mul_pos p1 p2
    rw [logBase_ok hb hv, logBase_ok hb hN, logBase_ok hb hp]
    simp only [bind, Except.bind, pure, Except.pure, List.prod_cons, List.prod_nil, mul_one]
    congr 1
    push_cast
    field_simp
    ring

/-- a variable with one distinct value is constant -/
theorem npUnique_length_eq_one {xs : List α} (h : (npUnique xs).length = 1) :
    ∀ a ∈ xs, ∀ c ∈ xs, a = c := by
  intro a ha c hc
  obtain ⟨u, hu⟩ := List.length_eq_one_iff.1 h
  have h1 := mem_npUnique.2 ha
  have h2 := mem_npUnique.2 hc
  rw [hu] at h1 h2
  simp only [List.mem_singleton] at h1 h2
  rw [h1, h2]

theorem mi_const_left {β γ : Type} [DecidableEq β] [DecidableEq γ] {xs : List β} {ys : List γ}
    (h : xs.length = ys.length) (hc : ∀ a ∈ xs, ∀ c ∈ xs, a = c) : Spec.mi xs ys = 0 := by
  have h1 := mi_le_left xs ys h
  have h2 := mi_nonneg xs ys h
  rw [(entropy_eq_zero_iff xs).2 hc] at h1
  linarith

theorem mi_const_right {β γ : Type} [DecidableEq β] [DecidableEq γ] {xs : List β} {ys : List γ}
    (h : xs.length = ys.length) (hc : ∀ a ∈ ys, ∀ c ∈ ys, a = c) : Spec.mi xs ys = 0 := by
  rw [mi_comm xs ys h]; exact mi_const_left h.symm hc

/-- two variables, ordinary base, no correction: exactly the mutual information -/
theorem mi2dInt_std (xs ys : List α) (h : xs.length = ys.length) (hne : xs ≠ [])
    (hov : xs.length ^ 2 < 2 ^ 64) {b : Base} (hb : b.Std) :
    mi2dInt (logBase b) xs ys none = .ok (Spec.mi xs ys / b.ln) := by
  rw [mi2dInt_ok xs ys h hne hov hb.valid]
  split
  · rename_i hc
    rcases hc with hc | hc
    · rw [mi_const_left h (npUnique_length_eq_one hc), zero_div]
    · rw [mi_const_right h (npUnique_length_eq_one hc), zero_div]
  · rw [addCorr, max_eq_left (div_nonneg (mi_nonneg xs ys h) hb.ln_pos.le)]

end Verif
