import Verif.Lemmas.Mutual
import Verif.Spec.Independence
import Verif.Props.Inequalities

/-! # Helper lemmas: when the elementary inequalities are equalities -/

namespace Verif.Spec

variable {Ω α β γ : Type*} [DecidableEq α] [DecidableEq β] [DecidableEq γ]

/-- total mass of the product weights `n(x,z) n(y,z) / n(z)` -/
theorem eqc_total (ws : List Ω) (f : Ω → α) (g : Ω → β) (h : Ω → γ) :
    ∑ t ∈ (ws.map f).toFinset ×ˢ (ws.map g).toFinset ×ˢ (ws.map h).toFinset,
      (cnt (ws.map (fun w => (f w, h w))) (t.1, t.2.2) : ℝ) *
        (cnt (ws.map (fun w => (g w, h w))) (t.2.1, t.2.2) : ℝ) / (cnt (ws.map h) t.2.2 : ℝ) = ws.length := by
  rw [Finset.sum_product]
  simp only [Finset.sum_product]
  have : ∀ x ∈ (ws.map f).toFinset, ∑ y ∈ (ws.map g).toFinset, ∑ z ∈ (ws.map h).toFinset,
      (cnt (ws.map (fun w => (f w, h w))) (x, z) : ℝ) *
        (cnt (ws.map (fun w => (g w, h w))) (y, z) : ℝ) / (cnt (ws.map h) z : ℝ)
      = ∑ z ∈ (ws.map h).toFinset, (cnt (ws.map (fun w => (f w, h w))) (x, z) : ℝ) := by
    intro x _
    rw [Finset.sum_comm]
    refine Finset.sum_congr rfl fun z hz => ?_
    rw [← Finset.sum_div, ← Finset.mul_sum, sum_count_pair, mul_div_assoc, div_self, mul_one]
    have := cnt_pos_iff.2 (List.mem_toFinset.1 hz)
    positivity
  rw [Finset.sum_congr rfl this, Finset.sum_comm]
  simp only [sum_count_pair]
  rw [sum_count, List.length_map]

theorem eqc_mass (ws : List Ω) (f : Ω → α) (g : Ω → β) (h : Ω → γ) :
    ∑ t ∈ (ws.map f).toFinset ×ˢ (ws.map g).toFinset ×ˢ (ws.map h).toFinset,
      (cnt (ws.map (fun w => (f w, g w, h w))) t : ℝ) = ws.length := by
  rw [show (ws.length : ℝ) = ((ws.map (fun w => (f w, g w, h w))).length : ℝ) by simp, ← sum_count]
  refine (Finset.sum_subset ?_ ?_).symm
  · intro t ht
    rw [List.mem_toFinset, List.mem_map] at ht
    obtain ⟨w, hw, rfl⟩ := ht
    simp only [Finset.mem_product, List.mem_toFinset]
    exact ⟨List.mem_map_of_mem hw, List.mem_map_of_mem hw, List.mem_map_of_mem hw⟩
  · intro t _ hn
    rw [List.mem_toFinset] at hn
    have : cnt (ws.map (fun w => (f w, g w, h w))) t = 0 := Nat.eq_zero_of_not_pos (fun h => hn (cnt_pos_iff.1 h))
    rw [this]; simp

/-- conditional mutual information is zero exactly when the two variables are independent given the third -/
theorem cmi_map_eq_zero_iff (ws : List Ω) (f : Ω → α) (g : Ω → β) (h : Ω → γ) :
    cmi (ws.map f) (ws.map g) (ws.map h) = 0 ↔ CondIndep (ws.map f) (ws.map g) (ws.map h) := by
  rcases ws.eq_nil_or_concat with rfl | ⟨_, _, hc⟩
  · simp [cmi, CondIndep]
  have hne : ws ≠ [] := by rw [hc]; simp
  have hN : (0:ℝ) < ws.length := by exact_mod_cast List.length_pos_iff.2 hne
  constructor
  · intro hz
    rw [cmi_map, cmi_entropy_sample] at hz
    have hsum := (div_eq_zero_iff.1 hz).resolve_right hN.ne'
    have hone := sum_log_eq_zero ws _ (cmi_ratio_pos ws f g h) (sum_cmi_ratio_le ws f g h) (neg_eq_zero.1 hsum)
    set T := (ws.map f).toFinset ×ˢ (ws.map g).toFinset ×ˢ (ws.map h).toFinset with hT
    set q : α × β × γ → ℝ := fun t => (cnt (ws.map (fun w => (f w, h w))) (t.1, t.2.2) : ℝ) *
        (cnt (ws.map (fun w => (g w, h w))) (t.2.1, t.2.2) : ℝ) / (cnt (ws.map h) t.2.2 : ℝ) with hq
    set p : α × β × γ → ℝ := fun t => (cnt (ws.map (fun w => (f w, g w, h w))) t : ℝ) with hp
    have hle : ∀ t ∈ T, 0 ≤ q t - p t := by
      intro t _
      by_cases hm : t ∈ ws.map (fun w => (f w, g w, h w))
      · obtain ⟨w, hw, rfl⟩ := List.mem_map.1 hm
        have h1 := hone w hw
        have hpos : (0:ℝ) < cnt (ws.map (fun w => (f w, g w, h w))) (f w, g w, h w) := by
          exact_mod_cast count_map_pos (fun w => (f w, g w, h w)) hw
        rw [div_eq_one_iff_eq hpos.ne'] at h1
        simp only [hq, hp]
        rw [h1, sub_self]
      · have h0 : cnt (ws.map (fun w => (f w, g w, h w))) t = 0 := Nat.eq_zero_of_not_pos (fun h => hm (cnt_pos_iff.1 h))
        simp only [hq, hp, h0, Nat.cast_zero, sub_zero]
        positivity
    have htot : ∑ t ∈ T, (q t - p t) = 0 := by
      rw [Finset.sum_sub_distrib]
      simp only [hq, hp, hT]
      rw [eqc_total, eqc_mass, sub_self]
    have hall := (Finset.sum_eq_zero_iff_of_nonneg hle).1 htot
    intro x hx y hy z hz'
    have := hall (x, y, z) (by simp only [hT, Finset.mem_product, List.mem_toFinset]; exact ⟨hx, hy, hz'⟩)
    have hzpos : (0:ℝ) < cnt (ws.map h) z := by exact_mod_cast cnt_pos_iff.2 hz'
    simp only [hq, hp] at this
    rw [sub_eq_zero, div_eq_iff hzpos.ne'] at this
    simp only [zip_map_map]
    unfold freq
    simp only [List.length_map]
    rw [div_mul_div_comm, div_mul_div_comm, this]
    ring
  · intro hf
    unfold cmi
    refine Finset.sum_eq_zero fun t ht => ?_
    have ht' := List.mem_toFinset.1 ht
    have ht2 := ht'
    rw [zip_map_map, zip_map_map, List.mem_map] at ht2
    obtain ⟨w, hw, rfl⟩ := ht2
    have h1 := freq_pos (List.mem_map_of_mem (f := h) hw)
    have h2 := freq_pos ht'
    simp only
    rw [hf _ (List.mem_map_of_mem hw) _ (List.mem_map_of_mem hw) _ (List.mem_map_of_mem hw), div_self, Real.log_one, mul_zero]
    rw [← hf _ (List.mem_map_of_mem hw) _ (List.mem_map_of_mem hw) _ (List.mem_map_of_mem hw)]
    exact (mul_pos h1 h2).ne'

theorem cmi_eq_zero_iff (xs : List α) (ys : List β) (zs : List γ) (h1 : xs.length = ys.length) (h2 : ys.length = zs.length) :
    cmi xs ys zs = 0 ↔ CondIndep xs ys zs := by
  have hyz : (xs.zip (ys.zip zs)).map (fun w => w.2) = ys.zip zs := map_snd_zip' xs _ (by simp; omega)
  have hx : (xs.zip (ys.zip zs)).map (fun w => w.1) = xs := map_fst_zip' xs _ (by simp; omega)
  have hy : (xs.zip (ys.zip zs)).map (fun w => w.2.1) = ys := by
    have : (xs.zip (ys.zip zs)).map (fun w => w.2.1) = ((xs.zip (ys.zip zs)).map (fun w => w.2)).map Prod.fst := by
      rw [List.map_map]; rfl
    rw [this, hyz, map_fst_zip' ys zs h2]
  have hz : (xs.zip (ys.zip zs)).map (fun w => w.2.2) = zs := by
    have : (xs.zip (ys.zip zs)).map (fun w => w.2.2) = ((xs.zip (ys.zip zs)).map (fun w => w.2)).map Prod.snd := by
      rw [List.map_map]; rfl
    rw [this, hyz, map_snd_zip' ys zs h2]
  have := cmi_map_eq_zero_iff (xs.zip (ys.zip zs)) (fun w => w.1) (fun w => w.2.1) (fun w => w.2.2)
  rwa [hx, hy, hz] at this

/-- `I(X;Y|Z) ≤ H(X|Z)` with equality exactly when `X` is a function of `(Y, Z)` -/
theorem cmi_map_le_cond (ws : List Ω) (f : Ω → α) (g : Ω → β) (h : Ω → γ) :
    cmi (ws.map f) (ws.map g) (ws.map h) ≤ condEntropy (ws.map f) (ws.map h) ∧
    (cmi (ws.map f) (ws.map g) (ws.map h) = condEntropy (ws.map f) (ws.map h) ↔
      ∀ u ∈ ws, ∀ v ∈ ws, (g u, h u) = (g v, h v) → f u = f v) := by
  classical
  have hd : ∀ u ∈ ws, ∀ v ∈ ws, (f u, g u, h u) = (f v, g v, h v) → (g u, h u) = (g v, h v) := fun u _ v _ e => by
    simp only [Prod.mk.injEq] at e ⊢; exact ⟨e.2.1, e.2.2⟩
  have hle := entropy_map_le ws (fun w => (f w, g w, h w)) (fun w => (g w, h w)) hd
  have hiff := entropy_map_eq_iff ws (fun w => (f w, g w, h w)) (fun w => (g w, h w)) hd
  unfold condEntropy
  rw [cmi_map, zip_map_map]
  refine ⟨by linarith, ?_⟩
  have : (entropy (ws.map (fun w => (f w, h w))) + entropy (ws.map (fun w => (g w, h w)))
        - entropy (ws.map (fun w => (f w, g w, h w))) - entropy (ws.map h) =
      entropy (ws.map (fun w => (f w, h w))) - entropy (ws.map h)) ↔
      entropy (ws.map (fun w => (g w, h w))) = entropy (ws.map (fun w => (f w, g w, h w))) :=
    ⟨fun e => by linarith, fun e => by linarith⟩
  rw [this, hiff]
  refine forall₂_congr fun u _ => forall₂_congr fun v _ => ?_
  simp only [Prod.mk.injEq]
  exact ⟨fun e e' => (e e').1, fun e e' => ⟨e e', e'⟩⟩

theorem mi_eq_entropy_iff (xs : List α) (ys : List β) (h : xs.length = ys.length) :
    mi xs ys = entropy xs ↔ Determines ys xs := by
  have hd : ∀ u ∈ xs.zip ys, ∀ v ∈ xs.zip ys, (id u : α × β) = id v → u.2 = v.2 := fun u _ v _ e => by
    simp only [id] at e; rw [e]
  have hiff := entropy_map_eq_iff (xs.zip ys) id (fun w => w.2) hd
  rw [List.map_id, show (xs.zip ys).map (fun w => w.2) = ys from map_snd_zip' xs ys h] at hiff
  rw [mi_eq_entropies xs ys h]
  have : (entropy xs + entropy ys - entropy (xs.zip ys) = entropy xs) ↔ entropy ys = entropy (xs.zip ys) :=
    ⟨fun e => by linarith, fun e => by linarith⟩
  rw [this, hiff]
  unfold Determines
  refine forall₂_congr fun u _ => forall₂_congr fun v _ => ?_
  simp only [id]
  exact ⟨fun e e' => congrArg Prod.fst (e e'), fun e e' => Prod.ext (e e') e'⟩

/-! ### total correlation -/

theorem eqc_rows_cons [Inhabited α] (n : Nat) (c : List α) (cs : List (List α)) :
    rows n (c :: cs) = (List.range n).map (fun t => c.getD t default :: row cs t) := rfl

theorem eqc_col [Inhabited α] (n : Nat) (c : List α) (h : c.length = n) : (List.range n).map (fun t => c.getD t default) = c := by
  subst h
  apply List.ext_getElem?
  intro i
  by_cases hi : i < c.length
  · simp [hi, List.getD_eq_getElem?_getD]
  · simp [hi, not_lt.1 hi]

theorem eqc_tc_cons [Inhabited α] (n : Nat) (c : List α) (cs : List (List α)) (h : c.length = n) :
    totalCorrelation n (c :: cs) = mi c (rows n cs) + totalCorrelation n cs := by
  have h1 := mi_map (List.range n) (fun t => c.getD t default) (row cs)
  rw [eqc_col n c h] at h1
  change mi c (rows n cs) = entropy c + entropy (rows n cs) - _ at h1
  have h2 : entropy ((List.range n).map (fun t => (c.getD t default, row cs t))) = entropy (rows n (c :: cs)) := by
    rw [eqc_rows_cons]
    exact entropy_map_congr _ _ _ (fun u _ v _ => by simp [Prod.ext_iff])
  rw [h1, h2]
  unfold totalCorrelation
  simp only [List.map_cons, List.sum_cons]
  ring

theorem eqc_tc_nonneg [Inhabited α] (n : Nat) (cs : List (List α)) (h : ∀ c ∈ cs, c.length = n) :
    0 ≤ totalCorrelation n cs := by
  induction cs with
  | nil =>
    have : entropy (rows n ([] : List (List α))) = 0 := entropy_map_const (List.range n) ([] : List α)
    simp [totalCorrelation, this]
  | cons c cs ih =>
    rw [eqc_tc_cons n c cs (h c (by simp))]
    have := mi_nonneg c (rows n cs) (by simp [rows, h c (by simp)])
    have := ih (fun c hc => h c (by simp [hc]))
    linarith

theorem eqc_freq_cons [Inhabited α] (n : Nat) (c : List α) (cs : List (List α)) (h : c.length = n) (x : α) (v : List α) :
    freq (rows n (c :: cs)) (x :: v) = freq (c.zip (rows n cs)) (x, v) := by
  have e : c.zip (rows n cs) = (List.range n).map (fun t => (c.getD t default, row cs t)) := by
    conv_lhs => rw [← eqc_col n c h]
    exact zip_map_map _ _ _
  rw [e, eqc_rows_cons]
  unfold freq
  rw [cnt_map, cnt_map]
  simp only [List.length_map]
  congr 2
  exact List.countP_congr fun u _ => by simp [Prod.ext_iff]

/-- marginalising the first column -/
theorem eqc_marginal [Inhabited α] (n : Nat) (c : List α) (cs : List (List α)) (h : c.length = n) (v : List α) :
    ∑ x ∈ c.toFinset, freq (rows n (c :: cs)) (x :: v) = freq (rows n cs) v := by
  have h1 := sum_count_pair (List.range n) (fun t => c.getD t default) (row cs) v
  rw [eqc_col n c h] at h1
  simp only [eqc_freq_cons n c cs h]
  have e : c.zip (rows n cs) = (List.range n).map (fun t => (c.getD t default, row cs t)) := by
    conv_lhs => rw [← eqc_col n c h]
    exact zip_map_map _ _ _
  rw [e]
  unfold freq
  rw [← Finset.sum_div, h1]
  simp [rows]

theorem eqc_sum_freq (c : List α) (h : c ≠ []) : ∑ x ∈ c.toFinset, freq c x = 1 := by
  unfold freq
  rw [← Finset.sum_div, sum_count, div_self]
  exact_mod_cast (List.length_pos_iff.2 h).ne'

/-- total correlation is zero exactly when the joint frequencies are products of the marginal ones -/
theorem tc_eq_zero_iff [Inhabited α] (n : Nat) (hn : 0 < n) (cs : List (List α)) (h : ∀ c ∈ cs, c.length = n) :
    totalCorrelation n cs = 0 ↔ Factorises n cs := by
  induction cs with
  | nil =>
    have h0 : entropy (rows n ([] : List (List α))) = 0 := entropy_map_const (List.range n) ([] : List α)
    refine iff_of_true (by simp [totalCorrelation, h0]) ?_
    intro v hv
    cases hv
    unfold freq
    have : cnt (rows n ([] : List (List α))) [] = n := by
      unfold rows; rw [cnt_map]; simp [row]
    rw [this]
    have : (n : ℝ) ≠ 0 := by exact_mod_cast hn.ne'
    simp [rows, this]
  | cons c cs ih =>
    have hc : c.length = n := h c (by simp)
    have hcn : c ≠ [] := List.length_pos_iff.1 (by omega)
    have hcs : ∀ c ∈ cs, c.length = n := fun c hc => h c (by simp [hc])
    have hl : c.length = (rows n cs).length := by simp [rows, hc]
    have hmi := mi_nonneg c (rows n cs) hl
    have htc := eqc_tc_nonneg n cs hcs
    rw [eqc_tc_cons n c cs hc, add_eq_zero_iff_of_nonneg hmi htc, mi_eq_zero_iff c (rows n cs) hl, ih hcs]
    constructor
    · rintro ⟨hp, hf⟩ v hv
      cases hv with
      | @cons x _ v' _ hx hv' =>
      rw [eqc_freq_cons n c cs hc]
      simp only [List.zipWith_cons_cons, List.prod_cons]
      rw [← hf v' hv']
      by_cases hm : v' ∈ rows n cs
      · exact hp x hx v' hm
      · have h1 : cnt (rows n cs) v' = 0 := Nat.eq_zero_of_not_pos (fun h => hm (cnt_pos_iff.1 h))
        have h2 : cnt (c.zip (rows n cs)) (x, v') = 0 :=
          Nat.eq_zero_of_not_pos (fun h => hm (List.of_mem_zip (cnt_pos_iff.1 h)).2)
        simp [freq, h1, h2]
    · intro hf
      have hf' : Factorises n cs := by
        intro v hv
        rw [← eqc_marginal n c cs hc v, Finset.sum_congr rfl (fun x hx => hf (x :: v) (.cons (List.mem_toFinset.1 hx) hv))]
        simp only [List.zipWith_cons_cons, List.prod_cons]
        rw [← Finset.sum_mul, eqc_sum_freq c hcn, one_mul]
      refine ⟨fun x hx v hv => ?_, hf'⟩
      have hv' : List.Forall₂ (fun a c => a ∈ c) v cs := by
        obtain ⟨t, ht, rfl⟩ := List.mem_map.1 hv
        have ht' := List.mem_range.1 ht
        unfold row
        rw [List.forall₂_map_left_iff, List.forall₂_same]
        intro d hd
        have : t < d.length := by rw [hcs d hd]; exact ht'
        rw [List.getD_eq_getElem?_getD, List.getElem?_eq_getElem this]
        exact List.getElem_mem this
      rw [← eqc_freq_cons n c cs hc, hf (x :: v) (.cons hx hv'), hf' v hv']
      simp

end Verif.Spec
