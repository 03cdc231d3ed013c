import Verif.Lemmas.Mutual
import Verif.Spec.Robust
import Verif.Spec.Embedding
import Verif.Spec.Ordinal
import Mathlib.Data.Finset.Card
import Mathlib.Analysis.SpecialFunctions.Log.Basic

/-! # Helper lemmas: the entropy of a sample moves little when few observations change -/

namespace Verif.Spec

section
variable {α β γ : Type*} [DecidableEq α] [DecidableEq β] [DecidableEq γ]

/-- unnormalised entropy sum over a set of symbols -/
noncomputable def rbG (S : Finset α) (xs : List α) : ℝ := ∑ a ∈ S, (cnt xs a : ℝ) * Real.log (cnt xs a)

theorem rb_entropy {S : Finset α} {xs : List α} (hS : xs.toFinset ⊆ S) (h : xs ≠ []) :
    entropy xs = Real.log xs.length - rbG S xs / xs.length := by
  have hN : (0 : ℝ) < xs.length := by exact_mod_cast List.length_pos_iff.2 h
  have e : rbG S xs = rbG xs.toFinset xs := by
    unfold rbG
    refine (Finset.sum_subset hS fun a _ ha => ?_).symm
    have : cnt xs a = 0 := by
      by_contra hc
      exact ha (List.mem_toFinset.2 (cnt_pos_iff.1 (Nat.pos_of_ne_zero hc)))
    rw [this]; simp
  rw [e]
  unfold entropy rbG
  have e1 : ∀ a ∈ xs.toFinset, freq xs a * Real.log (freq xs a) =
      (cnt xs a * Real.log (cnt xs a)) / xs.length - cnt xs a * (Real.log xs.length / xs.length) := by
    intro a ha
    have hc : (0 : ℝ) < cnt xs a := by exact_mod_cast cnt_pos_iff.2 (List.mem_toFinset.1 ha)
    unfold freq
    rw [Real.log_div hc.ne' hN.ne']
    ring
  rw [Finset.sum_congr rfl e1, Finset.sum_sub_distrib, ← Finset.sum_div, ← Finset.sum_mul, sum_count]
  field_simp
  ring

theorem rb_step (c N : ℕ) (h : c < N) : 0 ≤ ((c + 1 : ℕ) : ℝ) * Real.log ((c + 1 : ℕ) : ℝ) - c * Real.log c ∧
    ((c + 1 : ℕ) : ℝ) * Real.log ((c + 1 : ℕ) : ℝ) - c * Real.log c ≤ 1 + Real.log N := by
  have hc1 : (0 : ℝ) < ((c + 1 : ℕ) : ℝ) := by positivity
  have hlog : Real.log ((c + 1 : ℕ) : ℝ) ≤ Real.log N := Real.log_le_log hc1 (by exact_mod_cast h)
  have hnn : 0 ≤ Real.log ((c + 1 : ℕ) : ℝ) := Real.log_natCast_nonneg _
  rcases Nat.eq_zero_or_pos c with rfl | hc
  · simp
    linarith [Real.log_natCast_nonneg N]
  · have hc0 : (0 : ℝ) < c := by exact_mod_cast hc
    have hle : Real.log c ≤ Real.log ((c + 1 : ℕ) : ℝ) := Real.log_le_log hc0 (by exact_mod_cast Nat.le_succ c)
    have key : (c : ℝ) * (Real.log ((c + 1 : ℕ) : ℝ) - Real.log c) ≤ 1 := by
      rw [← Real.log_div hc1.ne' hc0.ne']
      have := Real.log_le_sub_one_of_pos (div_pos hc1 hc0)
      have h2 : (c : ℝ) * (((c + 1 : ℕ) : ℝ) / c - 1) = 1 := by push_cast; field_simp; ring
      calc _ ≤ (c : ℝ) * (((c + 1 : ℕ) : ℝ) / c - 1) := by gcongr
        _ = 1 := h2
    have e : ((c + 1 : ℕ) : ℝ) * Real.log ((c + 1 : ℕ) : ℝ) - c * Real.log c =
        c * (Real.log ((c + 1 : ℕ) : ℝ) - Real.log c) + Real.log ((c + 1 : ℕ) : ℝ) := by push_cast; ring
    rw [e]
    refine ⟨add_nonneg (mul_nonneg hc0.le (by linarith)) hnn, by linarith⟩

theorem rb_cons {S : Finset α} {a : α} {xs : List α} {N : ℕ} (ha : a ∈ S) (h : xs.length < N) :
    rbG S xs ≤ rbG S (a :: xs) ∧ rbG S (a :: xs) ≤ rbG S xs + (1 + Real.log N) := by
  have hstep := rb_step (cnt xs a) N (lt_of_le_of_lt (cnt_le_length xs a) h)
  have e : rbG S (a :: xs) - rbG S xs =
      ((cnt xs a + 1 : ℕ) : ℝ) * Real.log ((cnt xs a + 1 : ℕ) : ℝ) - cnt xs a * Real.log (cnt xs a) := by
    unfold rbG
    rw [← Finset.sum_sub_distrib, Finset.sum_eq_single_of_mem a ha]
    · rw [cnt_cons, if_pos rfl]
    · intro b _ hb
      rw [cnt_cons, if_neg (fun h => hb h.symm)]; simp
  constructor <;> linarith [hstep.1, hstep.2]

theorem rb_append {S : Finset α} {ws : List α} {N : ℕ} : ∀ us : List α, (∀ u ∈ us, u ∈ S) → us.length + ws.length ≤ N →
    rbG S ws ≤ rbG S (us ++ ws) ∧ rbG S (us ++ ws) ≤ rbG S ws + us.length * (1 + Real.log N)
  | [], _, _ => by simp
  | u :: us, hS, hN => by
    obtain ⟨h1, h2⟩ := rb_append us (fun v hv => hS v (List.mem_cons_of_mem _ hv)) (by simp at hN ⊢; omega) (ws := ws) (S := S) (N := N)
    obtain ⟨h3, h4⟩ := rb_cons (a := u) (xs := us ++ ws) (N := N) (hS u (by simp)) (by simp at hN ⊢; omega)
    rw [List.cons_append]
    refine ⟨h1.trans h3, ?_⟩
    have : ((u :: us).length : ℝ) = us.length + 1 := by simp
    rw [this]; linarith

theorem rb_perm {S : Finset α} {xs ys : List α} (h : xs.Perm ys) : rbG S xs = rbG S ys := by
  unfold rbG
  exact Finset.sum_congr rfl fun a _ => by rw [cnt_perm h]

theorem changed_cons (x y : α) (xs ys : List α) : changed (x :: xs) (y :: ys) = changed xs ys + if x = y then 0 else 1 := by
  unfold changed
  rw [List.length_cons, List.range_succ_eq_map, List.countP_cons, List.countP_map]
  congr 1
  by_cases h : x = y <;> simp [h]

theorem rb_split : ∀ xs ys : List α, xs.length = ys.length → ∃ us vs ws, xs.Perm (us ++ ws) ∧ ys.Perm (vs ++ ws) ∧
    us.length = changed xs ys ∧ vs.length = changed xs ys
  | [], [], _ => ⟨[], [], [], by simp, by simp, by simp [changed], by simp [changed]⟩
  | [], _ :: _, h => by simp at h
  | _ :: _, [], h => by simp at h
  | x :: xs, y :: ys, h => by
    obtain ⟨us, vs, ws, h1, h2, h3, h4⟩ := rb_split xs ys (by simpa using h)
    rw [changed_cons]
    by_cases e : x = y
    · subst e
      exact ⟨us, vs, x :: ws, (h1.cons x).trans List.perm_middle.symm, (h2.cons x).trans List.perm_middle.symm, by simp [h3], by simp [h4]⟩
    · exact ⟨x :: us, y :: vs, ws, h1.cons x, h2.cons y, by simp [h3, e], by simp [h4, e]⟩

/-- `m` changed observations out of `N` change the entropy by at most `m (1 + log N) / N` -/
theorem rb_entropy_diff (xs ys : List α) (h : xs.length = ys.length) :
    |entropy xs - entropy ys| ≤ changed xs ys * ((1 + Real.log xs.length) / xs.length) := by
  rcases eq_or_ne xs [] with rfl | hx
  · have : ys = [] := List.eq_nil_of_length_eq_zero h.symm
    subst this; simp
  have hN : (0 : ℝ) < xs.length := by exact_mod_cast List.length_pos_iff.2 hx
  have hy : ys ≠ [] := by rintro rfl; simp at h; exact hx h
  obtain ⟨us, vs, ws, h1, h2, h3, h4⟩ := rb_split xs ys h
  set S := xs.toFinset ∪ ys.toFinset with hS
  rw [rb_entropy (S := S) Finset.subset_union_left hx, rb_entropy (S := S) Finset.subset_union_right hy, ← h]
  have l1 : us.length + ws.length ≤ xs.length := by rw [h1.length_eq]; simp
  have l2 : vs.length + ws.length ≤ xs.length := by rw [h, h2.length_eq]; simp
  obtain ⟨a1, a2⟩ := rb_append (S := S) (ws := ws) us (fun u hu => by
    rw [hS, Finset.mem_union]; exact Or.inl (List.mem_toFinset.2 (h1.mem_iff.2 (by simp [hu])))) l1
  obtain ⟨b1, b2⟩ := rb_append (S := S) (ws := ws) vs (fun u hu => by
    rw [hS, Finset.mem_union]; exact Or.inr (List.mem_toFinset.2 (h2.mem_iff.2 (by simp [hu])))) l2
  rw [rb_perm h1, rb_perm h2]
  rw [h3] at a2; rw [h4] at b2
  have : |rbG S (vs ++ ws) - rbG S (us ++ ws)| ≤ changed xs ys * (1 + Real.log xs.length) := by
    rw [abs_le]; constructor <;> linarith
  calc _ = |rbG S (vs ++ ws) - rbG S (us ++ ws)| / xs.length := by
        rw [← abs_of_pos hN, ← abs_div, abs_of_pos hN]; congr 1; ring
    _ ≤ changed xs ys * (1 + Real.log xs.length) / xs.length := by gcongr
    _ = _ := by ring

/-- the number of different symbols changes by at most the number of changed observations -/
theorem rb_card_diff (xs ys : List α) (h : xs.length = ys.length) :
    |(xs.toFinset.card : ℝ) - ys.toFinset.card| ≤ changed xs ys := by
  obtain ⟨us, vs, ws, h1, h2, h3, h4⟩ := rb_split xs ys h
  have e1 : xs.toFinset = us.toFinset ∪ ws.toFinset := by ext a; simp [h1.mem_iff]
  have e2 : ys.toFinset = vs.toFinset ∪ ws.toFinset := by ext a; simp [h2.mem_iff]
  have p : ∀ us ws : List α, ws.toFinset.card ≤ (us.toFinset ∪ ws.toFinset).card ∧
      (us.toFinset ∪ ws.toFinset).card ≤ us.length + ws.toFinset.card := fun us ws =>
    ⟨Finset.card_le_card Finset.subset_union_right, (Finset.card_union_le _ _).trans (Nat.add_le_add_right (List.toFinset_card_le us) _)⟩
  obtain ⟨a1, a2⟩ := p us ws
  obtain ⟨b1, b2⟩ := p vs ws
  rw [← e1, h3] at a2; rw [← e1] at a1; rw [← e2, h4] at b2; rw [← e2] at b1
  have a1' : (ws.toFinset.card : ℝ) ≤ xs.toFinset.card := by exact_mod_cast a1
  have a2' : (xs.toFinset.card : ℝ) ≤ changed xs ys + ws.toFinset.card := by exact_mod_cast a2
  have b1' : (ws.toFinset.card : ℝ) ≤ ys.toFinset.card := by exact_mod_cast b1
  have b2' : (ys.toFinset.card : ℝ) ≤ changed xs ys + ws.toFinset.card := by exact_mod_cast b2
  rw [abs_le]; constructor <;> linarith

/-! ## Counting changed positions -/

theorem changed_card (xs ys : List α) : changed xs ys = ((Finset.range xs.length).filter (fun t => xs[t]? ≠ ys[t]?)).card := by
  unfold changed
  rw [List.countP_eq_length_filter]
  rfl

/-- a column that is a function of the row changes at most where the row changes -/
theorem changed_map_le (f : α → β) (xs ys : List α) : changed (xs.map f) (ys.map f) ≤ changed xs ys := by
  unfold changed
  rw [List.length_map]
  refine List.countP_mono_left fun t _ => ?_
  simp only [List.getElem?_map, decide_eq_true_eq]
  intro h1 h2
  exact h1 (by rw [h2])

theorem changed_zip_le (xs xs' : List α) (ys ys' : List β) (h : xs.length = ys.length) :
    changed (xs.zip ys) (xs'.zip ys') ≤ changed xs xs' + changed ys ys' := by
  rw [changed_card, changed_card, changed_card]
  refine le_trans (Finset.card_le_card ?_) (Finset.card_union_le _ _)
  intro t ht
  rw [Finset.mem_filter, Finset.mem_range, List.length_zip, ← h, min_self] at ht
  rw [Finset.mem_union, Finset.mem_filter, Finset.mem_filter, Finset.mem_range, Finset.mem_range, ← h]
  by_contra hc
  rw [not_or] at hc
  have e1 : xs[t]? = xs'[t]? := not_not.1 fun hn => hc.1 ⟨ht.1, hn⟩
  have e2 : ys[t]? = ys'[t]? := not_not.1 fun hn => hc.2 ⟨ht.1, hn⟩
  refine ht.2 ?_
  simp only [List.zip, List.getElem?_zipWith, e1, e2]

/-- changed rows of a table whose rows read the entries `idx j t`, `j < d`, of a series -/
theorem changed_rows [Inhabited α] (xs ys : List α) (R d : ℕ) (idx : ℕ → ℕ → ℕ) (F : List α → β)
    (hinj : ∀ j < d, ∀ t < R, ∀ t' < R, idx j t = idx j t' → t = t') (hlt : ∀ j < d, ∀ t < R, idx j t < xs.length) :
    changed ((List.range R).map (fun t => F ((List.range d).map (fun j => xs.getD (idx j t) default))))
      ((List.range R).map (fun t => F ((List.range d).map (fun j => ys.getD (idx j t) default)))) ≤ d * changed xs ys := by
  rw [changed_card, changed_card, List.length_map, List.length_range]
  have sub : ((Finset.range R).filter (fun t =>
      ((List.range R).map (fun t => F ((List.range d).map (fun j => xs.getD (idx j t) default))))[t]? ≠
      ((List.range R).map (fun t => F ((List.range d).map (fun j => ys.getD (idx j t) default))))[t]?)) ⊆
      (Finset.range d).biUnion (fun j => (Finset.range R).filter (fun t => xs[idx j t]? ≠ ys[idx j t]?)) := by
    intro t ht
    rw [Finset.mem_filter, Finset.mem_range] at ht
    obtain ⟨htR, hne⟩ := ht
    rw [List.getElem?_map, List.getElem?_map, List.getElem?_range htR] at hne
    rw [Finset.mem_biUnion]
    by_contra hc
    apply hne
    simp only [Option.map_some]
    congr 2
    refine List.map_congr_left fun j hj => ?_
    have hj' := List.mem_range.1 hj
    have : xs[idx j t]? = ys[idx j t]? := by
      by_contra hn
      exact hc ⟨j, Finset.mem_range.2 hj', Finset.mem_filter.2 ⟨Finset.mem_range.2 htR, hn⟩⟩
    rw [List.getD_eq_getElem?_getD, List.getD_eq_getElem?_getD, this]
  refine (Finset.card_le_card sub).trans (Finset.card_biUnion_le.trans ?_)
  have : ∀ j ∈ Finset.range d, ((Finset.range R).filter (fun t => xs[idx j t]? ≠ ys[idx j t]?)).card ≤
      ((Finset.range xs.length).filter (fun t => xs[t]? ≠ ys[t]?)).card := by
    intro j hj
    have hj' := Finset.mem_range.1 hj
    refine Finset.card_le_card_of_injOn (idx j) (fun t ht => ?_) (fun t ht t' ht' e => ?_)
    · simp only [Finset.coe_filter, Finset.mem_range, Set.mem_ofPred_eq, ne_eq] at ht ⊢
      exact ⟨hlt j hj' t ht.1, ht.2⟩
    · simp only [Finset.coe_filter, Finset.mem_range, Set.mem_ofPred_eq, ne_eq] at ht ht'
      exact hinj j hj' t ht.1 t' ht'.1 e
  exact (Finset.sum_le_card_nsmul _ _ _ this).trans (by simp)

theorem rb_mi_diff (xs xs' : List α) (ys ys' : List β) (h1 : xs.length = ys.length) (h2 : xs'.length = ys'.length) (h3 : xs.length = xs'.length) :
    |mi xs ys - mi xs' ys'| ≤ 3 * changed (xs.zip ys) (xs'.zip ys') * ((1 + Real.log xs.length) / xs.length) := by
  rw [mi_eq_entropies xs ys h1, mi_eq_entropies xs' ys' h2]
  set m := changed (xs.zip ys) (xs'.zip ys') with hm
  have hL : 0 ≤ (1 + Real.log xs.length) / xs.length := by
    have := Real.log_natCast_nonneg xs.length
    positivity
  have a1 := rb_entropy_diff xs xs' h3
  have a2 := rb_entropy_diff ys ys' (by omega)
  have a3 := rb_entropy_diff (xs.zip ys) (xs'.zip ys') (by simp; omega)
  have b1 : (changed xs xs' : ℝ) ≤ m := by
    have := changed_map_le Prod.fst (xs.zip ys) (xs'.zip ys')
    rw [map_fst_zip' _ _ h1, map_fst_zip' _ _ h2] at this
    exact_mod_cast this
  have b2 : (changed ys ys' : ℝ) ≤ m := by
    have := changed_map_le Prod.snd (xs.zip ys) (xs'.zip ys')
    rw [map_snd_zip' _ _ h1, map_snd_zip' _ _ h2] at this
    exact_mod_cast this
  rw [← h1] at a2
  rw [show (xs.zip ys).length = xs.length by simp; omega] at a3
  have c1 := mul_le_mul_of_nonneg_right b1 hL
  have c2 := mul_le_mul_of_nonneg_right b2 hL
  rw [abs_le] at a1 a2 a3 ⊢
  constructor <;> linarith [a1.1, a1.2, a2.1, a2.2, a3.1, a3.2]

theorem rb_cmi_diff (xs xs' : List α) (ys ys' : List β) (zs zs' : List γ) (h1 : xs.length = ys.length) (h2 : ys.length = zs.length)
    (h1' : xs'.length = ys'.length) (h2' : ys'.length = zs'.length) (h3 : xs.length = xs'.length) :
    |cmi xs ys zs - cmi xs' ys' zs'| ≤
      4 * changed (xs.zip (ys.zip zs)) (xs'.zip (ys'.zip zs')) * ((1 + Real.log xs.length) / xs.length) := by
  rw [cmi_eq_entropies xs ys zs h1 h2, cmi_eq_entropies xs' ys' zs' h1' h2']
  set m := changed (xs.zip (ys.zip zs)) (xs'.zip (ys'.zip zs')) with hm
  have hL : 0 ≤ (1 + Real.log xs.length) / xs.length := by
    have := Real.log_natCast_nonneg xs.length
    positivity
  have k1 : (xs.zip (ys.zip zs)).map (fun w => (w.1, w.2.2)) = xs.zip zs := by
    have := zip_map_map (xs.zip (ys.zip zs)) Prod.fst (fun w => w.2.2)
    rw [← this, map_fst_zip' _ _ (by simp; omega)]
    congr 1
    have e := map_snd_zip' xs (ys.zip zs) (by simp; omega)
    rw [show (fun w : α × β × γ => w.2.2) = Prod.snd ∘ Prod.snd from rfl, ← List.map_map, e, map_snd_zip' _ _ h2]
  have k1' : (xs'.zip (ys'.zip zs')).map (fun w => (w.1, w.2.2)) = xs'.zip zs' := by
    have := zip_map_map (xs'.zip (ys'.zip zs')) Prod.fst (fun w => w.2.2)
    rw [← this, map_fst_zip' _ _ (by simp; omega)]
    congr 1
    have e := map_snd_zip' xs' (ys'.zip zs') (by simp; omega)
    rw [show (fun w : α × β × γ => w.2.2) = Prod.snd ∘ Prod.snd from rfl, ← List.map_map, e, map_snd_zip' _ _ h2']
  have k2 := map_snd_zip' xs (ys.zip zs) (by simp; omega)
  have k2' := map_snd_zip' xs' (ys'.zip zs') (by simp; omega)
  have b1 : (changed (xs.zip zs) (xs'.zip zs') : ℝ) ≤ m := by
    have := changed_map_le (fun w => (w.1, w.2.2)) (xs.zip (ys.zip zs)) (xs'.zip (ys'.zip zs'))
    rw [k1, k1'] at this
    exact_mod_cast this
  have b2' : changed (ys.zip zs) (ys'.zip zs') ≤ m := by
    have := changed_map_le Prod.snd (xs.zip (ys.zip zs)) (xs'.zip (ys'.zip zs'))
    rwa [k2, k2'] at this
  have b2 : (changed (ys.zip zs) (ys'.zip zs') : ℝ) ≤ m := by exact_mod_cast b2'
  have b3 : (changed zs zs' : ℝ) ≤ m := by
    have := changed_map_le Prod.snd (ys.zip zs) (ys'.zip zs')
    rw [map_snd_zip' _ _ h2, map_snd_zip' _ _ h2'] at this
    exact_mod_cast this.trans b2'
  have a1 := rb_entropy_diff (xs.zip zs) (xs'.zip zs') (by simp; omega)
  have a2 := rb_entropy_diff (ys.zip zs) (ys'.zip zs') (by simp; omega)
  have a3 := rb_entropy_diff (xs.zip (ys.zip zs)) (xs'.zip (ys'.zip zs')) (by simp; omega)
  have a4 := rb_entropy_diff zs zs' (by omega)
  rw [show (xs.zip zs).length = xs.length by simp; omega] at a1
  rw [show (ys.zip zs).length = xs.length by simp; omega] at a2
  rw [show (xs.zip (ys.zip zs)).length = xs.length by simp; omega] at a3
  rw [← h2, ← h1] at a4
  have c1 := mul_le_mul_of_nonneg_right b1 hL
  have c2 := mul_le_mul_of_nonneg_right b2 hL
  have c3 := mul_le_mul_of_nonneg_right b3 hL
  rw [abs_le] at a1 a2 a3 a4 ⊢
  constructor <;> linarith [a1.1, a1.2, a2.1, a2.2, a3.1, a3.2, a4.1, a4.2]

end

end Verif.Spec
