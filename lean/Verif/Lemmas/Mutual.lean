import Verif.Lemmas.Info

/-! # Helper lemmas: (conditional) mutual information in terms of entropies -/

namespace Verif.Spec

variable {Ω α β γ : Type*} [DecidableEq α] [DecidableEq β] [DecidableEq γ]

/-- expectation over the support = sample mean -/
theorem sum_freq_mul (ws : List Ω) (k : Ω → α) (F : α → ℝ) :
    ∑ a ∈ (ws.map k).toFinset, freq (ws.map k) a * F a = (ws.map (fun w => F (k w))).sum / ws.length := by
  have h := sum_map_eq_count (ws.map k) F
  rw [List.map_map] at h
  have h' : (ws.map (fun w => F (k w))).sum = (ws.map (F ∘ k)).sum := rfl
  rw [h', h, Finset.sum_div]
  refine Finset.sum_congr rfl fun a _ => ?_
  unfold freq; rw [List.length_map]; ring

omit [DecidableEq α] [DecidableEq β] in
theorem zip_map_map (ws : List Ω) (f : Ω → α) (g : Ω → β) :
    (ws.map f).zip (ws.map g) = ws.map (fun w => (f w, g w)) := by
  induction ws with
  | nil => rfl
  | cons w ws ih => simp [ih]

theorem mi_map (ws : List Ω) (f : Ω → α) (g : Ω → β) :
    mi (ws.map f) (ws.map g) =
      entropy (ws.map f) + entropy (ws.map g) - entropy (ws.map (fun w => (f w, g w))) := by
  unfold mi
  rw [zip_map_map]
  have h := sum_freq_mul ws (fun w => (f w, g w)) (fun p : α × β =>
    Real.log (freq (ws.map (fun w => (f w, g w))) p / (freq (ws.map f) p.1 * freq (ws.map g) p.2)))
  refine h.trans ?_
  rw [entropy_map_eq, entropy_map_eq, entropy_map_eq, ← add_div, ← sub_div, ← sum_map_add',
    ← sum_map_sub']
  congr 2
  refine List.map_congr_left fun w hw => ?_
  have h1 := freq_pos (List.mem_map_of_mem (f := f) hw)
  have h2 := freq_pos (List.mem_map_of_mem (f := g) hw)
  have h3 := freq_pos (List.mem_map_of_mem (f := fun w => (f w, g w)) hw)
  rw [Real.log_div h3.ne' (mul_pos h1 h2).ne', Real.log_mul h1.ne' h2.ne']
  ring

theorem cmi_map (ws : List Ω) (f : Ω → α) (g : Ω → β) (h : Ω → γ) :
    cmi (ws.map f) (ws.map g) (ws.map h) =
      entropy (ws.map (fun w => (f w, h w))) + entropy (ws.map (fun w => (g w, h w)))
        - entropy (ws.map (fun w => (f w, g w, h w))) - entropy (ws.map h) := by
  unfold cmi
  simp only [zip_map_map]
  have hh := sum_freq_mul ws (fun w => (f w, g w, h w)) (fun p : α × β × γ =>
    Real.log (freq (ws.map h) p.2.2 * freq (ws.map (fun w => (f w, g w, h w))) p /
      (freq (ws.map (fun w => (f w, h w))) (p.1, p.2.2) *
        freq (ws.map (fun w => (g w, h w))) (p.2.1, p.2.2))))
  refine hh.trans ?_
  rw [entropy_map_eq, entropy_map_eq, entropy_map_eq, entropy_map_eq, ← add_div, ← sub_div,
    ← sub_div, ← sum_map_add', ← sum_map_sub', ← sum_map_sub']
  congr 2
  refine List.map_congr_left fun w hw => ?_
  have h1 := freq_pos (List.mem_map_of_mem (f := fun w => (f w, h w)) hw)
  have h2 := freq_pos (List.mem_map_of_mem (f := fun w => (g w, h w)) hw)
  have h3 := freq_pos (List.mem_map_of_mem (f := fun w => (f w, g w, h w)) hw)
  have h4 := freq_pos (List.mem_map_of_mem (f := h) hw)
  rw [Real.log_div (mul_pos h4 h3).ne' (mul_pos h1 h2).ne', Real.log_mul h1.ne' h2.ne',
    Real.log_mul h4.ne' h3.ne']
  ring

omit [DecidableEq α] [DecidableEq β] in
/-- representing two aligned lists over one sample space -/
theorem map_fst_zip' (xs : List α) (ys : List β) (h : xs.length = ys.length) :
    (xs.zip ys).map Prod.fst = xs := List.map_fst_zip (by omega)

omit [DecidableEq α] [DecidableEq β] in
theorem map_snd_zip' (xs : List α) (ys : List β) (h : xs.length = ys.length) :
    (xs.zip ys).map Prod.snd = ys := List.map_snd_zip (by omega)

theorem mi_eq_entropies (xs : List α) (ys : List β) (h : xs.length = ys.length) :
    mi xs ys = entropy xs + entropy ys - entropy (xs.zip ys) := by
  have := mi_map (xs.zip ys) Prod.fst Prod.snd
  rw [map_fst_zip' xs ys h, map_snd_zip' xs ys h] at this
  rw [this]
  congr 2
  exact List.map_id _

theorem mi_nonneg (xs : List α) (ys : List β) (h : xs.length = ys.length) : 0 ≤ mi xs ys := by
  have h1 := entropy_pair_le (xs.zip ys) Prod.fst Prod.snd
  rw [map_fst_zip' xs ys h, map_snd_zip' xs ys h] at h1
  have h2 : (xs.zip ys).map (fun w => (w.1, w.2)) = xs.zip ys := List.map_id _
  rw [h2] at h1
  rw [mi_eq_entropies xs ys h]; linarith

theorem mi_comm (xs : List α) (ys : List β) (h : xs.length = ys.length) : mi xs ys = mi ys xs := by
  rw [mi_eq_entropies xs ys h, mi_eq_entropies ys xs h.symm]
  have e := entropy_map_congr (xs.zip ys) id Prod.swap (fun u _ v _ => by
    constructor
    · intro h; simp only [id] at h; rw [h]
    · intro h; exact Prod.swap_injective h)
  have e2 : (xs.zip ys).map Prod.swap = ys.zip xs := List.zip_swap xs ys
  rw [List.map_id, e2] at e
  rw [e]; ring

theorem mi_le_left (xs : List α) (ys : List β) (h : xs.length = ys.length) :
    mi xs ys ≤ entropy xs := by
  have h1 := entropy_map_le (xs.zip ys) id Prod.snd (fun u _ v _ h => by
    simp only [id] at h; rw [h])
  rw [List.map_id, map_snd_zip' xs ys h] at h1
  rw [mi_eq_entropies xs ys h]; linarith

/-- mutual information is zero exactly when the empirical joint distribution factorises -/
theorem mi_eq_zero_iff (xs : List α) (ys : List β) (h : xs.length = ys.length) :
    mi xs ys = 0 ↔ ∀ x ∈ xs, ∀ y ∈ ys, freq (xs.zip ys) (x, y) = freq xs x * freq ys y := by
  rcases Nat.eq_zero_or_pos xs.length with h0 | hpos
  · have : xs = [] := List.eq_nil_of_length_eq_zero h0
    subst this
    simp [mi]
  have hN : (0:ℝ) < xs.length := by exact_mod_cast hpos
  set ws := xs.zip ys with hws
  have hwl : ws.length = xs.length := by simp [hws, h]
  have hx : ws.map Prod.fst = xs := map_fst_zip' xs ys h
  have hy : ws.map Prod.snd = ys := map_snd_zip' xs ys h
  have key := cmi_entropy_sample ws Prod.fst Prod.snd (fun _ => ())
  have e1 : entropy (ws.map (fun w => (w.1, ()))) = entropy xs := by
    rw [entropy_map_congr ws (fun w => (w.1, ())) Prod.fst (by simp), hx]
  have e2 : entropy (ws.map (fun w => (w.2, ()))) = entropy ys := by
    rw [entropy_map_congr ws (fun w => (w.2, ())) Prod.snd (by simp), hy]
  have e3 : entropy (ws.map (fun w => (w.1, w.2, ()))) = entropy ws := by
    rw [entropy_map_congr ws (fun w => (w.1, w.2, ())) id (by simp [Prod.ext_iff]), List.map_id]
  rw [e1, e2, e3, entropy_map_const, sub_zero, ← mi_eq_entropies xs ys h] at key
  have hle := sum_cmi_ratio_le ws Prod.fst Prod.snd (fun _ => ())
  have hp := cmi_ratio_pos ws Prod.fst Prod.snd (fun _ => ())
  -- simplify the counts
  have c1 : ∀ x, cnt (ws.map (fun w => (w.1, ()))) (x, ()) = cnt xs x := fun x => by
    rw [cnt_map, ← hx, cnt_map]; refine List.countP_congr fun u _ => by simp [Prod.ext_iff]
  have c2 : ∀ y, cnt (ws.map (fun w => (w.2, ()))) (y, ()) = cnt ys y := fun y => by
    rw [cnt_map, ← hy, cnt_map]; refine List.countP_congr fun u _ => by simp [Prod.ext_iff]
  have c3 : ∀ x y, cnt (ws.map (fun w => (w.1, w.2, ()))) (x, y, ()) = cnt ws (x, y) := fun x y => by
    rw [cnt_map, cnt]; refine List.countP_congr fun u _ => by simp [Prod.ext_iff]
  have c4 : cnt (ws.map (fun _ => ())) () = xs.length := by
    rw [cnt_map]; simp [hwl]
  simp only [c1, c2, c3, c4] at key hle hp
  constructor
  · intro hz
    rw [hz] at key
    have hsum : (ws.map (fun w => Real.log ((cnt xs w.1 : ℝ) * (cnt ys w.2 : ℝ) / (xs.length : ℝ) /
        (cnt ws (w.1, w.2) : ℝ)))).sum = 0 := by
      have hwl' : ((ws.length : ℕ) : ℝ) ≠ 0 := by rw [hwl]; exact hN.ne'
      have := (div_eq_zero_iff.1 key.symm).resolve_right hwl'
      linarith
    have hone := sum_log_eq_zero ws _ hp hle hsum
    -- on the support the ratio is one; off the support use total mass
    have hsupp : ∀ w ∈ ws, (cnt ws w : ℝ) = (cnt xs w.1 : ℝ) * (cnt ys w.2 : ℝ) / (xs.length : ℝ) := by
      intro w hw
      have h1 := hone w hw
      have : (0:ℝ) < cnt ws (w.1, w.2) := by exact_mod_cast cnt_pos_iff.2 hw
      rw [div_eq_one_iff_eq this.ne'] at h1
      exact h1.symm
    have tot : ∑ p ∈ xs.toFinset ×ˢ ys.toFinset,
        ((cnt xs p.1 : ℝ) * (cnt ys p.2 : ℝ) / (xs.length : ℝ) - (cnt ws p : ℝ)) = 0 := by
      have hprod : ∑ p ∈ xs.toFinset ×ˢ ys.toFinset, (cnt xs p.1 : ℝ) * (cnt ys p.2 : ℝ) =
          (xs.length : ℝ) * (ys.length : ℝ) := by
        rw [Finset.sum_product]; simp only []; rw [← Finset.sum_mul_sum, sum_count, sum_count]
      rw [Finset.sum_sub_distrib, ← Finset.sum_div, hprod]
      have : ∑ p ∈ xs.toFinset ×ˢ ys.toFinset, (cnt ws p : ℝ) = xs.length := by
        rw [← hwl, ← sum_count ws]
        refine (Finset.sum_subset ?_ ?_).symm
        · intro p hp'
          have hp' := List.mem_toFinset.1 hp'
          rw [Finset.mem_product, List.mem_toFinset, List.mem_toFinset]
          exact ⟨(List.of_mem_zip hp').1, (List.of_mem_zip hp').2⟩
        · intro p _ hn
          rw [List.mem_toFinset] at hn
          have : cnt ws p = 0 := Nat.eq_zero_of_not_pos (fun h => hn (cnt_pos_iff.1 h))
          rw [this]; simp
      rw [this, ← h]; field_simp; ring
    have hnn : ∀ p ∈ xs.toFinset ×ˢ ys.toFinset,
        0 ≤ ((cnt xs p.1 : ℝ) * (cnt ys p.2 : ℝ) / (xs.length : ℝ) - (cnt ws p : ℝ)) := by
      intro p _
      by_cases hm : p ∈ ws
      · rw [hsupp p hm, sub_self]
      · have : cnt ws p = 0 := Nat.eq_zero_of_not_pos (fun h => hm (cnt_pos_iff.1 h))
        rw [this]; simp only [Nat.cast_zero, sub_zero]; positivity
    have hall := (Finset.sum_eq_zero_iff_of_nonneg hnn).1 tot
    intro x hx' y hy'
    have := hall (x, y) (Finset.mem_product.2 ⟨List.mem_toFinset.2 hx', List.mem_toFinset.2 hy'⟩)
    unfold freq
    rw [hwl, ← h]
    have hc : (cnt ws (x, y) : ℝ) = (cnt xs x : ℝ) * (cnt ys y : ℝ) / (xs.length : ℝ) := by
      simp only at this; linarith
    rw [hc]; field_simp
  · intro hf
    unfold mi
    refine Finset.sum_eq_zero fun w hw => ?_
    have hm := List.of_mem_zip (List.mem_toFinset.1 hw)
    have hfw := hf w.1 hm.1 w.2 hm.2
    have hpos1 := freq_pos hm.1
    have hpos2 := freq_pos hm.2
    have : freq (xs.zip ys) w = freq xs w.1 * freq ys w.2 := hfw
    rw [this, div_self (mul_pos hpos1 hpos2).ne', Real.log_one, mul_zero]

theorem cmi_eq_entropies (xs : List α) (ys : List β) (zs : List γ) (h1 : xs.length = ys.length)
    (h2 : ys.length = zs.length) :
    cmi xs ys zs = entropy (xs.zip zs) + entropy (ys.zip zs) - entropy (xs.zip (ys.zip zs))
      - entropy zs := by
  have hz : (ys.zip zs).length = ys.length := by simp [h2]
  set ws := xs.zip (ys.zip zs) with hws
  have hx : ws.map (fun w => w.1) = xs := map_fst_zip' xs _ (by omega)
  have hyz : ws.map (fun w => w.2) = ys.zip zs := map_snd_zip' xs _ (by omega)
  have hy : ws.map (fun w => w.2.1) = ys := by
    have : ws.map (fun w => w.2.1) = (ws.map (fun w => w.2)).map Prod.fst := by
      rw [List.map_map]; rfl
    rw [this, hyz, map_fst_zip' ys zs h2]
  have hz' : ws.map (fun w => w.2.2) = zs := by
    have : ws.map (fun w => w.2.2) = (ws.map (fun w => w.2)).map Prod.snd := by
      rw [List.map_map]; rfl
    rw [this, hyz, map_snd_zip' ys zs h2]
  have key := cmi_map ws (fun w => w.1) (fun w => w.2.1) (fun w => w.2.2)
  have e3 : ws.map (fun w => (w.1, w.2.1, w.2.2)) = ws := List.map_id _
  rw [← zip_map_map, ← zip_map_map, e3, hx, hy, hz'] at key
  exact key

theorem cmi_nonneg (xs : List α) (ys : List β) (zs : List γ) (h1 : xs.length = ys.length)
    (h2 : ys.length = zs.length) : 0 ≤ cmi xs ys zs := by
  have hz : (ys.zip zs).length = ys.length := by simp [h2]
  set ws := xs.zip (ys.zip zs) with hws
  have hx : ws.map (fun w => w.1) = xs := map_fst_zip' xs _ (by omega)
  have hyz : ws.map (fun w => w.2) = ys.zip zs := map_snd_zip' xs _ (by omega)
  have hy : ws.map (fun w => w.2.1) = ys := by
    have : ws.map (fun w => w.2.1) = (ws.map (fun w => w.2)).map Prod.fst := by
      rw [List.map_map]; rfl
    rw [this, hyz, map_fst_zip' ys zs h2]
  have hz' : ws.map (fun w => w.2.2) = zs := by
    have : ws.map (fun w => w.2.2) = (ws.map (fun w => w.2)).map Prod.snd := by
      rw [List.map_map]; rfl
    rw [this, hyz, map_snd_zip' ys zs h2]
  have key := strong_subadditivity ws (fun w => w.1) (fun w => w.2.1) (fun w => w.2.2)
  rw [← cmi_map, hx, hy, hz'] at key
  exact key

end Verif.Spec
