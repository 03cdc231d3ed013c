import Verif.Props.TE3
import Verif.Props.Bias
import Verif.Props.Divergence

/-!
# C76 : information inequalities between calls

Data processing, the chain rule, the triangle inequality of the variation of information, mixing of samples and
repetition of samples, for the values the plug-in (and Miller–Madow) estimators return.
-/

namespace Verif

open Spec

section Lemmas

variable {Ω α α' β β' γ : Type*} [DecidableEq Ω] [DecidableEq α] [DecidableEq α'] [DecidableEq β] [DecidableEq β'] [DecidableEq γ]

/-- the three columns of an aligned table -/
theorem zip3_cols (xs : List α) (ys : List β) (zs : List γ) (h1 : xs.length = ys.length) (h2 : ys.length = zs.length) :
    (xs.zip (ys.zip zs)).map (fun w => w.1) = xs ∧ (xs.zip (ys.zip zs)).map (fun w => w.2.1) = ys ∧
      (xs.zip (ys.zip zs)).map (fun w => w.2.2) = zs := by
  have hz : (ys.zip zs).length = ys.length := by simp [h2]
  have hyz : (xs.zip (ys.zip zs)).map (fun w => w.2) = ys.zip zs := List.map_snd_zip (by omega)
  refine ⟨List.map_fst_zip (by omega), ?_, ?_⟩
  · have : (xs.zip (ys.zip zs)).map (fun w => w.2.1) = ((xs.zip (ys.zip zs)).map (fun w => w.2)).map Prod.fst := by
      rw [List.map_map]; rfl
    rw [this, hyz]; exact List.map_fst_zip (by omega)
  · have : (xs.zip (ys.zip zs)).map (fun w => w.2.2) = ((xs.zip (ys.zip zs)).map (fun w => w.2)).map Prod.snd := by
      rw [List.map_map]; rfl
    rw [this, hyz]; exact List.map_snd_zip (by omega)

/-- conditional data processing: replacing the first variable by one it determines cannot increase the value -/
theorem cmi_processing (ws : List Ω) (f : Ω → α) (f' : Ω → α') (g : Ω → β) (h : Ω → γ)
    (hdet : ∀ u ∈ ws, ∀ v ∈ ws, f u = f v → f' u = f' v) :
    cmi (ws.map f') (ws.map g) (ws.map h) ≤ cmi (ws.map f) (ws.map g) (ws.map h) := by
  rw [cmi_map, cmi_map]
  have key := strong_subadditivity ws f g (fun w => (f' w, h w))
  have e1 : entropy (ws.map (fun w => (f w, f' w, h w))) = entropy (ws.map (fun w => (f w, h w))) :=
    entropy_map_congr ws _ _ (fun u hu v hv => by
      simp only [Prod.mk.injEq]
      exact ⟨fun hh => ⟨hh.1, hh.2.2⟩, fun hh => ⟨hh.1, hdet u hu v hv hh.1, hh.2⟩⟩)
  have e2 : entropy (ws.map (fun w => (f w, g w, f' w, h w))) = entropy (ws.map (fun w => (f w, g w, h w))) :=
    entropy_map_congr ws _ _ (fun u hu v hv => by
      simp only [Prod.mk.injEq]
      exact ⟨fun hh => ⟨hh.1, hh.2.1, hh.2.2.2⟩, fun hh => ⟨hh.1, hh.2.1, hdet u hu v hv hh.1, hh.2.2⟩⟩)
  have e3 : entropy (ws.map (fun w => (g w, f' w, h w))) = entropy (ws.map (fun w => (f' w, g w, h w))) :=
    entropy_map_congr ws _ _ (fun u _ v _ => by simp only [Prod.mk.injEq]; tauto)
  rw [e1, e2, e3] at key
  linarith

theorem cmi_swap_vars (ws : List Ω) (f : Ω → α) (g : Ω → β) (h : Ω → γ) :
    cmi (ws.map f) (ws.map g) (ws.map h) = cmi (ws.map g) (ws.map f) (ws.map h) := by
  rw [cmi_map, cmi_map, entropy_map_congr ws (fun w => (f w, g w, h w)) (fun w => (g w, f w, h w))
    (fun u _ v _ => by simp only [Prod.mk.injEq]; tauto)]
  ring

theorem cmi_processing_right (ws : List Ω) (f : Ω → α) (g : Ω → β) (g' : Ω → β') (h : Ω → γ)
    (hdet : ∀ u ∈ ws, ∀ v ∈ ws, g u = g v → g' u = g' v) :
    cmi (ws.map f) (ws.map g') (ws.map h) ≤ cmi (ws.map f) (ws.map g) (ws.map h) := by
  rw [cmi_swap_vars ws f g', cmi_swap_vars ws f g]
  exact cmi_processing ws g g' f h hdet

theorem mi_as_cmi (ws : List Ω) (f : Ω → α) (g : Ω → β) :
    mi (ws.map f) (ws.map g) = cmi (ws.map f) (ws.map g) (ws.map (fun _ => ())) := by
  rw [mi_map, cmi_map, entropy_map_const,
    entropy_map_congr ws (fun w => (f w, ())) f (by simp),
    entropy_map_congr ws (fun w => (g w, ())) g (by simp),
    entropy_map_congr ws (fun w => (f w, g w, ())) (fun w => (f w, g w)) (by simp)]
  ring

theorem mi_processing (ws : List Ω) (f : Ω → α) (f' : Ω → α') (g : Ω → β) (g' : Ω → β')
    (hf : ∀ u ∈ ws, ∀ v ∈ ws, f u = f v → f' u = f' v) (hg : ∀ u ∈ ws, ∀ v ∈ ws, g u = g v → g' u = g' v) :
    mi (ws.map f') (ws.map g') ≤ mi (ws.map f) (ws.map g) := by
  rw [mi_as_cmi, mi_as_cmi]
  exact (cmi_processing ws f f' g' _ hf).trans (cmi_processing_right ws f g g' _ hg)

/-- a function of a sample keeps the entropy exactly when it merges no two occurring values -/
theorem entropy_map_eq_iff (ws : List Ω) (f : Ω → α) (g : Ω → β)
    (h : ∀ u ∈ ws, ∀ v ∈ ws, f u = f v → g u = g v) :
    entropy (ws.map g) = entropy (ws.map f) ↔ ∀ u ∈ ws, ∀ v ∈ ws, g u = g v → f u = f v := by
  refine ⟨fun he => ?_, fun h' => entropy_map_congr ws g f (fun u hu v hv => ⟨h' u hu v hv, h u hu v hv⟩)⟩
  rcases ws.eq_nil_or_concat with rfl | ⟨_, _, hc⟩
  · simp
  have hne : ws ≠ [] := by rw [hc]; simp
  have hN : (0:ℝ) < ws.length := by exact_mod_cast List.length_pos_iff.2 hne
  have hle : ∀ w ∈ ws, cnt (ws.map f) (f w) ≤ cnt (ws.map g) (g w) := fun w hw => by
    rw [cnt_map, cnt_map]
    refine List.countP_mono_left fun u hu hh => ?_
    have := of_decide_eq_true hh
    exact decide_eq_true (h u hu w hw this)
  have hfr : ∀ w ∈ ws, - Real.log (freq (ws.map g) (g w)) ≤ - Real.log (freq (ws.map f) (f w)) := fun w hw => by
    refine neg_le_neg (Real.log_le_log (freq_pos (List.mem_map_of_mem hw)) ?_)
    unfold freq
    rw [List.length_map, List.length_map]
    exact div_le_div_of_nonneg_right (by exact_mod_cast hle w hw) hN.le
  rw [entropy_map_eq, entropy_map_eq, div_left_inj' hN.ne'] at he
  have hz : (ws.map (fun w => - Real.log (freq (ws.map f) (f w)) - - Real.log (freq (ws.map g) (g w)))).sum = 0 := by
    rw [sum_map_sub']; linarith
  have hall : ∀ w ∈ ws, - Real.log (freq (ws.map f) (f w)) - - Real.log (freq (ws.map g) (g w)) = 0 := by
    intro w hw
    have hmem : (- Real.log (freq (ws.map f) (f w)) - - Real.log (freq (ws.map g) (g w))) ∈
        ws.map (fun w => - Real.log (freq (ws.map f) (f w)) - - Real.log (freq (ws.map g) (g w))) :=
      List.mem_map_of_mem (f := fun w => - Real.log (freq (ws.map f) (f w)) - - Real.log (freq (ws.map g) (g w))) hw
    refine le_antisymm ?_ (by have := hfr w hw; linarith)
    rw [← hz]
    refine List.single_le_sum (fun y hy => ?_) _ hmem
    obtain ⟨u, hu, rfl⟩ := List.mem_map.1 hy
    have := hfr u hu; linarith
  intro u hu v hv huv
  by_contra hne'
  have h0 := hall u hu
  have hlog : Real.log (freq (ws.map f) (f u)) = Real.log (freq (ws.map g) (g u)) := by linarith
  have hfe := Real.log_injOn_pos (Set.mem_Ioi.2 (freq_pos (List.mem_map_of_mem hu)))
    (Set.mem_Ioi.2 (freq_pos (List.mem_map_of_mem hu))) hlog
  unfold freq at hfe
  rw [List.length_map, List.length_map, div_left_inj' hN.ne'] at hfe
  have hce : cnt (ws.map f) (f u) = cnt (ws.map g) (g u) := by exact_mod_cast hfe
  rw [cnt_map, cnt_map] at hce
  have hlt : (ws.filter (fun w => decide (f w = f u))).length < (ws.filter (fun w => decide (g w = g u))).length := by
    have hsub : (ws.filter (fun w => decide (f w = f u))).Sublist (ws.filter (fun w => decide (g w = g u))) := by
      have : ws.filter (fun w => decide (f w = f u)) =
          (ws.filter (fun w => decide (g w = g u))).filter (fun w => decide (f w = f u)) := by
        rw [List.filter_filter]
        refine List.filter_congr fun w hw => ?_
        by_cases hh : f w = f u
        · simp [hh, h w hw u hu hh]
        · simp [hh]
      rw [this]; exact List.filter_sublist
    refine lt_of_le_of_ne hsub.length_le fun hl => ?_
    have := hsub.eq_of_length hl
    have hm : v ∈ ws.filter (fun w => decide (g w = g u)) := List.mem_filter.2 ⟨hv, by simp [huv]⟩
    rw [← this] at hm
    have := (List.mem_filter.1 hm).2
    exact hne' (of_decide_eq_true this).symm
  rw [List.countP_eq_length_filter, List.countP_eq_length_filter] at hce
  omega

end Lemmas

/-- **C76** Recoding a sample (merging categories, binning, rounding …) never increases its entropy, and keeps it exactly when no two
occurring values are merged. -/
theorem C76_entropy_of_recoding (xs : List Int) (hne : xs ≠ []) (f : Int → Int) (b : Base) (hb : b.Std) :
    ∃ H H', discreteEntropy [.arr1 xs] b = .ok H ∧ discreteEntropy [.arr1 (xs.map f)] b = .ok H' ∧ H' ≤ H ∧
      (H' = H ↔ ∀ x ∈ xs, ∀ y ∈ xs, f x = f y → x = y) := by
  refine ⟨_, _, discreteEntropy_arr1 hne hb.valid, discreteEntropy_arr1 (by simpa using hne) hb.valid, ?_, ?_⟩
  · refine div_le_div_of_nonneg_right ?_ hb.ln_pos.le
    have := entropy_map_le xs id f (fun u _ v _ h => by simp only [id] at h; rw [h])
    rwa [List.map_id] at this
  · rw [div_left_inj' hb.ln_pos.ne']
    have := entropy_map_eq_iff xs id f (fun u _ v _ h => by simp only [id] at h; rw [h])
    rwa [List.map_id] at this

/-- **C76** Data processing: recoding either variable never increases mutual information. -/
theorem C76_mi_data_processing (xs ys : List Int) (h : xs.length = ys.length) (hne : xs ≠ []) (hov : xs.length < 2 ^ 32)
    (f g : Int → Int) (b : Base) (hb : b.Std) :
    ∃ I I', discreteMI (.all1D [xs, ys]) (some 0) b = .ok I ∧
      discreteMI (.all1D [xs.map f, ys.map g]) (some 0) b = .ok I' ∧ 0 ≤ I' ∧ I' ≤ I := by
  have hl : (xs.map f).length = (ys.map g).length := by simpa using h
  refine ⟨_, _, discreteMI_std h hne hov hb, discreteMI_std hl (by simpa using hne)
    (by simpa using hov) hb, div_nonneg (mi_nonneg _ _ hl) hb.ln_pos.le, div_le_div_of_nonneg_right ?_ hb.ln_pos.le⟩
  have := mi_processing (xs.zip ys) Prod.fst (f ∘ Prod.fst) Prod.snd (g ∘ Prod.snd)
    (fun u _ v _ h => congrArg f h) (fun u _ v _ h => congrArg g h)
  rwa [← List.map_map, ← List.map_map, map_fst_zip' xs ys h, map_snd_zip' xs ys h] at this

example := C76_mi_data_processing [5, 7, 5, 2] [0, 0, 1, 1] rfl (by decide) (by decide) (fun x => x / 2) (fun y => y * y) (.num 2) (by norm_num [Base.Std])

/-- **C76** Conditional data processing: recoding either variable (not the condition) never increases conditional mutual information;
and it is at most the entropy of either variable. -/
theorem C76_cmi_data_processing (xs ys z : List Int) (h1 : xs.length = ys.length) (h2 : ys.length = z.length) (hne : xs ≠ [])
    (hov : xs.length < 2 ^ 32) (f g : Int → Int) (b : Base) (hb : b.Std) :
    ∃ I I' HX HY, discreteCMI [xs, ys] (some (.arr1 z)) none b = .ok I ∧
      discreteCMI [xs.map f, ys.map g] (some (.arr1 z)) none b = .ok I' ∧
      discreteEntropy [.arr1 xs] b = .ok HX ∧ discreteEntropy [.arr1 ys] b = .ok HY ∧ I' ≤ I ∧ I ≤ HX ∧ I ≤ HY := by
  have hy : ys ≠ [] := by rintro rfl; simp at h1; exact hne h1
  obtain ⟨e1, e2, e3⟩ := zip3_cols xs ys z h1 h2
  set ws := xs.zip (ys.zip z) with hws
  have ub : ∀ (f : Int × Int × Int → Int) (g : Int × Int × Int → Int) (h : Int × Int × Int → Int),
      cmi (ws.map f) (ws.map g) (ws.map h) ≤ entropy (ws.map f) := by
    intro f g h
    rw [cmi_map]
    have k1 := entropy_pair_le ws f h
    have k2 := entropy_map_le ws (fun w => (f w, g w, h w)) (fun w => (g w, h w)) (fun u _ v _ hh => (Prod.mk.inj hh).2)
    linarith
  refine ⟨_, _, _, _, C16_cmi_is_textbook xs ys z h1 h2 hne hov b hb.valid,
    C16_cmi_is_textbook (xs.map f) (ys.map g) z (by simpa using h1) (by simpa using h2) (by simpa using hne) (by simpa using hov) b hb.valid,
    discreteEntropy_arr1 hne hb.valid, discreteEntropy_arr1 hy hb.valid,
    div_le_div_of_nonneg_right ?_ hb.ln_pos.le, div_le_div_of_nonneg_right ?_ hb.ln_pos.le,
    div_le_div_of_nonneg_right ?_ hb.ln_pos.le⟩
  · have k := (cmi_processing ws (fun w => w.1) (fun w => f w.1) (fun w => g w.2.1) (fun w => w.2.2)
      (fun u _ v _ h => congrArg f h)).trans (cmi_processing_right ws (fun w => w.1) (fun w => w.2.1) (fun w => g w.2.1)
        (fun w => w.2.2) (fun u _ v _ h => congrArg g h))
    have k1 : ws.map (fun w => f w.1) = xs.map f := by rw [← e1, List.map_map]; rfl
    have k2 : ws.map (fun w => g w.2.1) = ys.map g := by rw [← e2, List.map_map]; rfl
    rwa [k1, k2, e1, e2, e3] at k
  · have := ub (fun w => w.1) (fun w => w.2.1) (fun w => w.2.2)
    rwa [e1, e2, e3] at this
  · have := ub (fun w => w.2.1) (fun w => w.1) (fun w => w.2.2)
    rw [← cmi_swap_vars] at this
    rwa [e1, e2, e3] at this

example := C76_cmi_data_processing [5, 7, 5, 2] [0, 0, 1, 1] [0, 1, 1, 0] rfl rfl (by decide) (by decide) (fun x => x / 2) (fun y => y * y) (.num 2) (by norm_num [Base.Std])

/-- **C76** Chain rule: coding the pair `(x, z)` injectively into one variable, `I((X,Z);Y) = I(Z;Y) + I(X;Y|Z)` between the three calls. -/
theorem C76_chain_rule (xs ys z : List Int) (h1 : xs.length = ys.length) (h2 : ys.length = z.length) (hne : xs ≠ [])
    (hov : xs.length < 2 ^ 32) (code : Int × Int → Int)
    (hcode : ∀ p ∈ xs.zip z, ∀ q ∈ xs.zip z, code p = code q → p = q) (b : Base) (hb : b.Std) :
    ∃ I J C, discreteMI (.all1D [(xs.zip z).map code, ys]) (some 0) b = .ok I ∧
      discreteMI (.all1D [z, ys]) (some 0) b = .ok J ∧ discreteCMI [xs, ys] (some (.arr1 z)) none b = .ok C ∧ I = J + C := by
  obtain ⟨e1, e2, e3⟩ := zip3_cols xs ys z h1 h2
  have hzne : z ≠ [] := by rintro rfl; simp at h2; rw [h2] at h1; simp at h1; exact hne h1
  have hxz : (xs.zip z).length = xs.length := by simp [h1, h2]
  have hne' : (xs.zip z).map code ≠ [] := by
    intro hh
    have := congrArg List.length hh
    simp only [List.length_map, hxz, List.length_nil] at this
    exact hne (List.length_eq_zero_iff.1 this)
  refine ⟨_, _, _, discreteMI_std (by simp [h1, h2]) hne' (by rw [List.length_map, hxz]; exact hov) hb,
    discreteMI_std h2.symm hzne (by omega) hb, C16_cmi_is_textbook xs ys z h1 h2 hne hov b hb.valid, ?_⟩
  rw [← add_div]
  congr 1
  set ws := xs.zip (ys.zip z) with hws
  have exz : ws.map (fun w => (w.1, w.2.2)) = xs.zip z := by
    conv_rhs => rw [← e1, ← e3, zip_map_map]
  have ec : (xs.zip z).map code = ws.map (fun w => code (w.1, w.2.2)) := by rw [← exz, List.map_map]; rfl
  have hin : ∀ u ∈ ws, ∀ v ∈ ws, code (u.1, u.2.2) = code (v.1, v.2.2) → u.1 = v.1 ∧ u.2.2 = v.2.2 := by
    intro u hu v hv hh
    have := hcode (u.1, u.2.2) (by rw [← exz]; exact List.mem_map_of_mem (f := fun w => (w.1, w.2.2)) hu) (v.1, v.2.2)
      (by rw [← exz]; exact List.mem_map_of_mem (f := fun w => (w.1, w.2.2)) hv) hh
    exact Prod.mk.inj this
  have m1 := mi_map ws (fun w => code (w.1, w.2.2)) (fun w => w.2.1)
  have m2 := mi_map ws (fun w => w.2.2) (fun w => w.2.1)
  have m3 := cmi_map ws (fun w => w.1) (fun w => w.2.1) (fun w => w.2.2)
  rw [← ec] at m1
  rw [e1, e2, e3] at m3
  rw [e2] at m1 m2
  rw [e3] at m2
  have c1 : entropy (ws.map (fun w => code (w.1, w.2.2))) = entropy (ws.map (fun w => (w.1, w.2.2))) :=
    entropy_map_congr ws _ _ (fun u hu v hv => by
      simp only [Prod.mk.injEq]
      exact ⟨hin u hu v hv, fun hh => by rw [hh.1, hh.2]⟩)
  have c2 : entropy (ws.map (fun w => (code (w.1, w.2.2), w.2.1))) = entropy (ws.map (fun w => (w.1, w.2.1, w.2.2))) :=
    entropy_map_congr ws _ _ (fun u hu v hv => by
      simp only [Prod.mk.injEq]
      exact ⟨fun hh => ⟨(hin u hu v hv hh.1).1, hh.2, (hin u hu v hv hh.1).2⟩, fun hh => ⟨by rw [hh.1, hh.2.2], hh.2.1⟩⟩)
  have c3 : entropy (ws.map (fun w => (w.2.2, w.2.1))) = entropy (ws.map (fun w => (w.2.1, w.2.2))) :=
    entropy_map_congr ws _ _ (fun u _ v _ => by simp only [Prod.mk.injEq]; tauto)
  rw [ec, c1] at m1
  rw [ec]
  rw [m1, m2, m3, c2, c3]
  ring

example := C76_chain_rule [5, 7, 5, 2] [0, 0, 1, 1] [0, 1, 1, 0] rfl rfl (by decide) (by decide) (fun p => 2 * p.1 + p.2) (by decide) (.num 2) (by norm_num [Base.Std])

/-- **C76** The variation of information `d(X,Y) = 2H(X,Y) − H(X) − H(Y)` computed from the library's entropies is a pseudo-metric:
`d(X,Z) ≤ d(X,Y) + d(Y,Z)`, non-negative, and zero exactly when each variable determines the other on the sample. -/
theorem C76_variation_of_information (xs ys z : List Int) (h1 : xs.length = ys.length) (h2 : ys.length = z.length) (hne : xs ≠ [])
    (b : Base) (hb : b.Std) :
    ∃ HX HY HZ HXY HYZ HXZ, discreteEntropy [.arr1 xs] b = .ok HX ∧ discreteEntropy [.arr1 ys] b = .ok HY ∧
      discreteEntropy [.arr1 z] b = .ok HZ ∧ discreteEntropy [.tup [xs, ys]] b = .ok HXY ∧
      discreteEntropy [.tup [ys, z]] b = .ok HYZ ∧ discreteEntropy [.tup [xs, z]] b = .ok HXZ ∧
      2 * HXZ - HX - HZ ≤ (2 * HXY - HX - HY) + (2 * HYZ - HY - HZ) ∧ 0 ≤ 2 * HXY - HX - HY ∧
      (2 * HXY - HX - HY = 0 ↔ ∀ p ∈ xs.zip ys, ∀ q ∈ xs.zip ys, p.1 = q.1 ↔ p.2 = q.2) := by
  have hy : ys ≠ [] := by rintro rfl; simp at h1; exact hne h1
  have hz : z ≠ [] := by rintro rfl; simp at h2; exact hy h2
  obtain ⟨e1, e2, e3⟩ := zip3_cols xs ys z h1 h2
  have hn : 0 < xs.length := List.length_pos_iff.2 hne
  have jt : ∀ us vs : List Int, us.length = xs.length → vs.length = xs.length →
      discreteEntropy [.tup [us, vs]] b = .ok (entropy (us.zip vs) / b.ln) := by
    intro us vs hu hv
    rw [jointEntropy_ok (n := xs.length) hn (by simp) (by simp [hu, hv]) hb.valid]
    have := tc_pair us vs (hu.trans hv.symm)
    rw [Spec.totalCorrelation, mi_eq_entropies us vs (hu.trans hv.symm), hu] at this
    simp only [List.map_cons, List.map_nil, List.sum_cons, List.sum_nil, add_zero] at this
    congr 2
    linarith
  refine ⟨_, _, _, _, _, _, discreteEntropy_arr1 hne hb.valid, discreteEntropy_arr1 hy hb.valid, discreteEntropy_arr1 hz hb.valid,
    jt xs ys rfl h1.symm, jt ys z h1.symm (h1.trans h2).symm, jt xs z rfl (h1.trans h2).symm, ?_, ?_, ?_⟩
  · set ws := xs.zip (ys.zip z) with hws
    have key := strong_subadditivity ws (fun w => w.1) (fun w => w.2.2) (fun w => w.2.1)
    have mono := entropy_map_le ws (fun w => (w.1, w.2.2, w.2.1)) (fun w => (w.1, w.2.2))
      (fun u _ v _ hh => by simp only [Prod.mk.injEq] at hh ⊢; exact ⟨hh.1, hh.2.1⟩)
    have z1 : ws.map (fun w => (w.1, w.2.2)) = xs.zip z := by conv_rhs => rw [← e1, ← e3, zip_map_map]
    have z2 : ws.map (fun w => (w.1, w.2.1)) = xs.zip ys := by conv_rhs => rw [← e1, ← e2, zip_map_map]
    have z3 : entropy (ws.map (fun w => (w.2.2, w.2.1))) = entropy (ys.zip z) := by
      rw [show ys.zip z = ws.map (fun w => (w.2.1, w.2.2)) by conv_lhs => rw [← e2, ← e3, zip_map_map]]
      exact entropy_map_congr ws _ _ (fun u _ v _ => by simp only [Prod.mk.injEq]; tauto)
    rw [z2, z3, e2] at key
    rw [z1] at mono
    have : entropy (xs.zip z) + entropy ys ≤ entropy (xs.zip ys) + entropy (ys.zip z) := by linarith
    have hd := div_le_div_of_nonneg_right this hb.ln_pos.le
    rw [add_div, add_div] at hd
    linarith
  · have k1 := entropy_map_le (xs.zip ys) id Prod.fst (fun u _ v _ h => by simp only [id] at h; rw [h])
    have k2 := entropy_map_le (xs.zip ys) id Prod.snd (fun u _ v _ h => by simp only [id] at h; rw [h])
    rw [List.map_id] at k1 k2
    rw [map_fst_zip' xs ys h1] at k1
    rw [map_snd_zip' xs ys h1] at k2
    have k1' := div_le_div_of_nonneg_right k1 hb.ln_pos.le
    have k2' := div_le_div_of_nonneg_right k2 hb.ln_pos.le
    linarith
  · have k1 := entropy_map_le (xs.zip ys) id Prod.fst (fun u _ v _ h => by simp only [id] at h; rw [h])
    have k2 := entropy_map_le (xs.zip ys) id Prod.snd (fun u _ v _ h => by simp only [id] at h; rw [h])
    have i1 := entropy_map_eq_iff (xs.zip ys) id Prod.fst (fun u _ v _ h => by simp only [id] at h; rw [h])
    have i2 := entropy_map_eq_iff (xs.zip ys) id Prod.snd (fun u _ v _ h => by simp only [id] at h; rw [h])
    rw [List.map_id] at k1 k2 i1 i2
    rw [map_fst_zip' xs ys h1] at k1 i1
    rw [map_snd_zip' xs ys h1] at k2 i2
    have hq : 2 * (entropy (xs.zip ys) / b.ln) - entropy xs / b.ln - entropy ys / b.ln = 0 ↔
        entropy xs = entropy (xs.zip ys) ∧ entropy ys = entropy (xs.zip ys) := by
      have : 2 * (entropy (xs.zip ys) / b.ln) - entropy xs / b.ln - entropy ys / b.ln =
          ((entropy (xs.zip ys) - entropy xs) + (entropy (xs.zip ys) - entropy ys)) / b.ln := by ring
      rw [this, div_eq_zero_iff, or_iff_left hb.ln_pos.ne']
      exact ⟨fun hh => ⟨by linarith, by linarith⟩, fun hh => by rw [← hh.1]; linarith [hh.1, hh.2]⟩
    rw [hq, i1, i2]
    constructor
    · rintro ⟨a1, a2⟩ p hp q hq
      exact ⟨fun h => by have := a1 p hp q hq h; simp only [id] at this; rw [this],
        fun h => by have := a2 p hp q hq h; simp only [id] at this; rw [this]⟩
    · intro hh
      exact ⟨fun p hp q hq h => Prod.ext h ((hh p hp q hq).1 h), fun p hp q hq h => Prod.ext ((hh p hp q hq).2 h) h⟩

/-- the hypotheses are met: three aligned variables and an injective pair code on the values that occur -/
example : ([0, 1, 1, 2] : List Int).length = ([5, 5, 7, 7] : List Int).length ∧ ([5, 5, 7, 7] : List Int).length = ([1, 1, 0, 0] : List Int).length ∧
    (∀ p ∈ ([0, 1, 1, 2] : List Int).zip ([1, 1, 0, 0] : List Int), ∀ q ∈ ([0, 1, 1, 2] : List Int).zip ([1, 1, 0, 0] : List Int),
      2 * p.1 + p.2 = 2 * q.1 + q.2 → p = q) := by decide

/-- a recoding that strictly lowers the entropy: merging the two values of a fair coin -/
example : ∃ H H', discreteEntropy [.arr1 [0, 1]] .e = .ok H ∧ discreteEntropy [.arr1 (([0, 1] : List Int).map (fun _ => 0))] .e = .ok H' ∧
    H' < H := by
  obtain ⟨H, H', h1, h2, h3, h4⟩ := C76_entropy_of_recoding [0, 1] (by simp) (fun _ => 0) .e trivial
  refine ⟨H, H', h1, h2, lt_of_le_of_ne h3 fun h => ?_⟩
  have := h4.1 h 0 (by simp) 1 (by simp) rfl
  omega

end Verif
