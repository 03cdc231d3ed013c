import Verif.Model.BiasMI
import Verif.Spec.BiasInfo
import Verif.Lemmas.TE3
import Verif.Props.Bias3

/-! # Lemmas: the combined bias-corrected estimates depend on the counts only -/

namespace Verif

open Spec

section
variable {Ω α β : Type} [DecidableEq α] [DecidableEq β]

/-- a sum over the symbols of a function of their counts is a sum over the positions -/
theorem symSum_eq (xs : List α) (φ : Nat → ℝ) :
    ∑ a ∈ xs.toFinset, φ (cnt xs a) = (xs.map (fun a => φ (cnt xs a) / cnt xs a)).sum := by
  rw [sum_map_eq_count]
  refine Finset.sum_congr rfl fun a ha => ?_
  have : (0:ℝ) < cnt xs a := by exact_mod_cast cnt_pos_iff.2 (List.mem_toFinset.1 ha)
  field_simp

theorem cnt_congr (ws : List Ω) (f : Ω → α) (g : Ω → β)
    (h : ∀ u ∈ ws, ∀ v ∈ ws, (f u = f v ↔ g u = g v)) {w : Ω} (hw : w ∈ ws) :
    cnt (ws.map f) (f w) = cnt (ws.map g) (g w) := by
  rw [cnt_map, cnt_map]
  refine List.countP_congr fun u hu => ?_
  simpa using h u hu w hw

theorem symSum_congr (ws : List Ω) (f : Ω → α) (g : Ω → β)
    (h : ∀ u ∈ ws, ∀ v ∈ ws, (f u = f v ↔ g u = g v)) (φ : Nat → ℝ) :
    ∑ a ∈ (ws.map f).toFinset, φ (cnt (ws.map f) a) = ∑ a ∈ (ws.map g).toFinset, φ (cnt (ws.map g) a) := by
  rw [symSum_eq, symSum_eq, List.map_map, List.map_map]
  congr 1
  refine List.map_congr_left fun w hw => ?_
  simp only [Function.comp, cnt_congr ws f g h hw]

theorem symSum_perm {xs ys : List α} (h : xs.Perm ys) (φ : Nat → ℝ) :
    ∑ a ∈ xs.toFinset, φ (cnt xs a) = ∑ a ∈ ys.toFinset, φ (cnt ys a) := by
  rw [List.toFinset_eq_of_perm _ _ h]
  simp only [cnt_perm h]

/-- the two samples have the same length and the same counts, up to renaming of the symbols -/
structure SameCounts (xs : List α) (ys : List β) : Prop where
  len : xs.length = ys.length
  card : xs.toFinset.card = ys.toFinset.card
  sum : ∀ φ : Nat → ℝ, ∑ a ∈ xs.toFinset, φ (cnt xs a) = ∑ a ∈ ys.toFinset, φ (cnt ys a)

theorem sameCounts_map (ws : List Ω) (f : Ω → α) (g : Ω → β)
    (h : ∀ u ∈ ws, ∀ v ∈ ws, (f u = f v ↔ g u = g v)) : SameCounts (ws.map f) (ws.map g) :=
  ⟨by simp, card_map_congr ws f g h, symSum_congr ws f g h⟩

theorem sameCounts_perm {xs ys : List α} (h : xs.Perm ys) : SameCounts xs ys :=
  ⟨h.length_eq, by rw [List.toFinset_eq_of_perm _ _ h], symSum_perm h⟩

theorem SameCounts.trans {γ : Type} [DecidableEq γ] {xs : List α} {ys : List β} {zs : List γ}
    (h : SameCounts xs ys) (h' : SameCounts ys zs) : SameCounts xs zs :=
  ⟨h.len.trans h'.len, h.card.trans h'.card, fun φ => (h.sum φ).trans (h'.sum φ)⟩

theorem SameCounts.symm {xs : List α} {ys : List β} (h : SameCounts xs ys) : SameCounts ys xs :=
  ⟨h.len.symm, h.card.symm, fun φ => (h.sum φ).symm⟩

theorem nodup_iff_card (xs : List α) : xs.Nodup ↔ xs.toFinset.card = xs.length := by
  constructor
  · exact List.toFinset_card_of_nodup
  · intro he
    rw [List.card_toFinset] at he
    rw [← List.dedup_eq_self]
    exact (List.dedup_sublist xs).eq_of_length he

theorem SameCounts.occurring {xs : List α} {ys : List β} (h : SameCounts xs ys) (m : Nat) :
    Spec.occurring xs m = Spec.occurring ys m := by
  have e : ∀ {γ : Type} [DecidableEq γ] (zs : List γ),
      ((Spec.occurring zs m : ℕ) : ℝ) = ∑ a ∈ zs.toFinset, (fun n => if n = m then (1:ℝ) else 0) (cnt zs a) := by
    intro γ _ zs
    rw [Spec.occurring, Finset.card_filter]
    push_cast
    rfl
  have := h.sum (fun n => if n = m then (1:ℝ) else 0)
  rw [← e, ← e] at this
  exact_mod_cast this

theorem SameCounts.shrinkWeight {xs : List α} {ys : List β} (h : SameCounts xs ys) :
    Spec.shrinkWeight xs = Spec.shrinkWeight ys := by
  have h1 := h.sum (fun n => (1 / (ys.toFinset.card : ℝ) - (n : ℝ) / (ys.length : ℝ)) ^ 2)
  have h2 := h.sum (fun n => ((n : ℝ) / (ys.length : ℝ)) ^ 2)
  simp only [Spec.shrinkWeight, freq, h.len, h.card]
  rw [h1, h2]
  congr

theorem value_congr {xs : List α} {ys : List β} (h : SameCounts xs ys) (m : Method) :
    m.value xs = m.value ys := by
  have hcov : coverage xs = coverage ys := by simp only [coverage, h.len, h.occurring]
  have hsup : ∀ K, supportSize xs K = supportSize ys K := by
    intro K; cases K <;> simp [supportSize, h.card]
  have hpar : cwjParam xs = cwjParam ys := by simp only [cwjParam, h.len, h.occurring]
  cases m with
  | grassberger =>
    have := h.sum (fun n => (n : ℝ) / ys.length * (Real.log ys.length - psi n - (-1) ^ n / ((n : ℝ) + 1)))
    simp only [Method.value, Spec.grassberger, freq, h.len]
    rw [this]
  | chaoShen =>
    have := h.sum (fun n => (coverage ys * ((n : ℝ) / ys.length)) * Real.log (coverage ys * ((n : ℝ) / ys.length)) /
      (1 - (1 - coverage ys * ((n : ℝ) / ys.length)) ^ ys.length))
    simp only [Method.value, Spec.chaoShen, freq, h.len, hcov]
    rw [this]
  | chaoWangJost =>
    have := h.sum (fun n => (n : ℝ) / ys.length * ∑ k ∈ Finset.Ico n ys.length, 1 / (k : ℝ))
    simp only [Method.value, Spec.chaoWangJost, cwjCorr, freq, h.len, hpar, h.occurring]
    rw [this]
  | shrink =>
    have := h.sum (fun n => (n : ℝ) / ys.length * Real.log (Spec.shrinkWeight ys * (1 / (ys.toFinset.card : ℝ)) +
      (1 - Spec.shrinkWeight ys) * ((n : ℝ) / ys.length)))
    simp only [Method.value, shrinkCross, shrinkProb, freq, h.len, h.card, h.shrinkWeight]
    rw [this]
  | zhang =>
    have := h.sum (fun n => (n : ℝ) / ys.length * ∑ v ∈ Finset.Icc 1 (ys.length - n), 1 / (v : ℝ) *
      ∏ j ∈ Finset.range v, (1 + (1 - (n : ℝ)) / ((ys.length : ℝ) - 1 - j)))
    simp only [Method.value, Spec.zhang, freq, h.len]
    rw [this]
  | bonachela =>
    have := h.sum (fun n => ((n : ℝ) + 1) * ∑ j ∈ Finset.Icc (n + 2) (ys.length + 2), 1 / (j : ℝ))
    simp only [Method.value, Spec.bonachela, h.len]
    rw [this]
  | bayes p K =>
    have := h.sum (fun n => ((n : ℝ) + p.conc (supportSize ys K) ys.length) /
        ((ys.length : ℝ) + supportSize ys K * p.conc (supportSize ys K) ys.length) *
      Real.log (((n : ℝ) + p.conc (supportSize ys K) ys.length) /
        ((ys.length : ℝ) + supportSize ys K * p.conc (supportSize ys K) ys.length)))
    simp only [Method.value, Spec.bayes, bayesProb, h.len, hsup]
    rw [this]
  | ansb => simp only [Method.value, h.len, h.card]

theorem defined_congr {xs : List α} {ys : List β} (h : SameCounts xs ys) (m : Method) :
    m.Defined xs ↔ m.Defined ys := by
  cases m <;> simp only [Method.Defined]
  rw [nodup_iff_card, nodup_iff_card, h.len, h.card]

/-- a coarser labelling of the positions keeps repetitions -/
theorem defined_of_factor (ws : List Ω) (f : Ω → α) (g : Ω → β) (h : ∀ u ∈ ws, ∀ v ∈ ws, f u = f v → g u = g v)
    (m : Method) (hd : m.Defined (ws.map f)) : m.Defined (ws.map g) := by
  cases m <;> simp only [Method.Defined] at hd ⊢
  intro hn
  refine hd ?_
  have hw : ws.Nodup := hn.of_map
  have hi := List.inj_on_of_nodup_map hn
  exact (List.nodup_map_iff_inj_on hw).2 (fun u hu v hv e => hi hu hv (h u hu v hv e))

end

/-! ### Combination -/

/-- estimator with local values whose mean is `V` -/
def HEst.Loc (est : HEst) (V : List Int → ℝ) : Prop :=
  ∀ xs : List Int, xs ≠ [] → ∃ l, est.localVals (mkData xs) = .ok l ∧ l.length = xs.length ∧ Spec.mean l = V xs

/-- estimator without local values, global value `V` where it is defined -/
def HEst.Glob (est : HEst) (D : List Int → Prop) (V : List Int → ℝ) : Prop :=
  ∀ xs : List Int, xs ≠ [] →
    (est.localVals (mkData xs) = .error .unsupportedOperation ∨
      est.localVals (mkData xs) = .error .theoreticalInconsistency) ∧
    (D xs → est.globalVal (mkData xs) = .ok (V xs)) ∧
    (¬ D xs → est.globalVal (mkData xs) = .error .nonFinite)

theorem ne_nil_of_length {N : Nat} (hN : 0 < N) {c : List Int} (h : c.length = N) : c ≠ [] := by
  rintro rfl; simp at h; omega

theorem mapM_error_mem {A B : Type} {f : A → Except Exc B} {e : Exc} (l : List A)
    (h : ∀ a ∈ l, (∃ v, f a = .ok v) ∨ f a = .error e) (hx : ∃ a ∈ l, f a = .error e) :
    l.mapM f = .error e := by
  induction l with
  | nil => simp at hx
  | cons a l ih =>
    rw [List.mapM_cons]
    rcases h a (by simp) with ⟨v, hv⟩ | hv
    · have : ∃ b ∈ l, f b = .error e := by
        obtain ⟨b, hb, hbe⟩ := hx
        rcases List.mem_cons.1 hb with rfl | hb
        · rw [hv] at hbe; cases hbe
        · exact ⟨b, hb, hbe⟩
      rw [hv, ih (fun b hb => h b (by simp [hb])) this]; rfl
    · rw [hv]; rfl

theorem combine_val {est : HEst} {D : List Int → Prop} {V : List Int → ℝ}
    (h : (est.Loc V ∧ ∀ xs, D xs) ∨ est.Glob D V) {N : Nat} (hN : 0 < N) (plus minus : List (List Int))
    (hp : plus ≠ []) (hpl : ∀ c ∈ plus, c.length = N) (hml : ∀ c ∈ minus, c.length = N) :
    ((∀ c, c ∈ plus ∨ c ∈ minus → D c) →
      combineH est (plus.map mkData) (minus.map mkData) = .ok ((plus.map V).sum - (minus.map V).sum)) ∧
    ((∃ c, (c ∈ plus ∨ c ∈ minus) ∧ ¬ D c) →
      combineH est (plus.map mkData) (minus.map mkData) = .error .nonFinite) := by
  classical
  have hne : ∀ c, c ∈ plus ∨ c ∈ minus → c ≠ [] := fun c hc =>
    ne_nil_of_length hN (hc.elim (hpl _) (hml _))
  have hG : ∀ l : List (List Int), (l.map mkData).map (fun d : DiscreteData Int => V (d.data.getD [])) = l.map V := by
    intro l; rw [List.map_map]; rfl
  rcases h with ⟨h, hD⟩ | h
  · refine ⟨fun _ => ?_, fun ⟨c, _, hc⟩ => absurd (hD c) hc⟩
    choose! l h2 h3 h4 using h
    rw [← hG plus, ← hG minus]
    refine combineH_ok est hN _ _ (by simpa using hp) (fun d => l (d.data.getD [])) _ ?_
    intro d hd
    obtain ⟨c, hc, rfl⟩ : ∃ c, (c ∈ plus ∨ c ∈ minus) ∧ mkData c = d := by
      rcases hd with hd | hd <;> obtain ⟨c, hc, e⟩ := List.mem_map.1 hd
      · exact ⟨c, Or.inl hc, e⟩
      · exact ⟨c, Or.inr hc, e⟩
    refine ⟨h2 c (hne c hc), ?_, h4 c (hne c hc)⟩
    show (l c).length = N
    rw [h3 c (hne c hc)]
    exact hc.elim (hpl _) (hml _)
  · constructor
    · intro hD
      rw [← hG plus, ← hG minus]
      refine combineH_fallback est _ _ (by simpa using hp) _ ?_ ?_
      · rintro d (hd | hd) <;> obtain ⟨c, hc, rfl⟩ := List.mem_map.1 hd
        · exact (h c (hne c (Or.inl hc))).2.1 (hD c (Or.inl hc))
        · exact (h c (hne c (Or.inr hc))).2.1 (hD c (Or.inr hc))
      · intro d hd
        obtain ⟨c, hc, rfl⟩ := List.mem_map.1 hd
        exact (h c (hne c (Or.inl hc))).1
    · intro hx
      obtain ⟨e, he, hee⟩ : ∃ e, ((plus.map mkData).mapM est.localVals = .error e) ∧
          (e = .unsupportedOperation ∨ e = .theoreticalInconsistency) := by
        cases plus with
        | nil => exact absurd rfl hp
        | cons d ds =>
          rw [List.map_cons, List.mapM_cons]
          rcases (h d (hne d (by simp))).1 with h1 | h1
          · exact ⟨_, by rw [h1]; rfl, Or.inl rfl⟩
          · exact ⟨_, by rw [h1]; rfl, Or.inr rfl⟩
      have hor : ∀ c, c ∈ plus ∨ c ∈ minus →
          (∃ v, est.globalVal (mkData c) = .ok v) ∨ est.globalVal (mkData c) = .error .nonFinite := by
        intro c hc
        by_cases hd : D c
        · exact Or.inl ⟨_, (h c (hne c hc)).2.1 hd⟩
        · exact Or.inr ((h c (hne c hc)).2.2 hd)
      unfold combineH
      simp only [he, bind, Except.bind, hee, if_true]
      by_cases hx1 : ∃ c ∈ plus, ¬ D c
      · obtain ⟨c, hc, hd⟩ := hx1
        rw [mapM_error_mem (e := .nonFinite) (plus.map mkData)]
        · intro d hd'
          obtain ⟨c', hc', rfl⟩ := List.mem_map.1 hd'
          exact hor c' (Or.inl hc')
        · exact ⟨_, List.mem_map_of_mem hc, (h c (hne c (Or.inl hc))).2.2 hd⟩
      · push Not at hx1
        obtain ⟨c, hc | hc, hd⟩ := hx
        · exact absurd (hx1 c hc) hd
        · rw [mapM_ok (g := fun d : DiscreteData Int => V (d.data.getD [])) (plus.map mkData) (by
            intro d hd'
            obtain ⟨c', hc', rfl⟩ := List.mem_map.1 hd'
            exact (h c' (hne c' (Or.inl hc'))).2.1 (hx1 c' hc'))]
          simp only []
          rw [mapM_error_mem (e := .nonFinite) (minus.map mkData)]
          · intro d hd'
            obtain ⟨c', hc', rfl⟩ := List.mem_map.1 hd'
            exact hor c' (Or.inr hc')
          · exact ⟨_, List.mem_map_of_mem hc, (h c (hne c (Or.inr hc))).2.2 hd⟩

end Verif
