import Verif.Props.BiasMI

/-! # Property C66 continued: invariances, special cases and parameter errors -/

namespace Verif

open Spec

/-- two inputs with the same counts of every variable and of the joint observations give the same result -/
theorem biasMI_congr {c : BiasClass} {m : Method} (h : c.Means m) {cols cols' : List (List Int)} {N N' : Nat} (hN : 0 < N)
    (hN' : 0 < N') (h2 : 2 ≤ cols.length) (h2' : 2 ≤ cols'.length) (hl : ∀ v ∈ cols, v.length = N)
    (hl' : ∀ v ∈ cols', v.length = N') {b : Base} (hb : b.Valid)
    (hs : (cols.map m.value).sum = (cols'.map m.value).sum) (hj : SameCounts (rows N cols) (rows N' cols')) :
    biasMI c cols (some 0) b = biasMI c cols' (some 0) b := by
  obtain ⟨a1, a2⟩ := C66_mi c m h cols N hN h2 hl b hb
  obtain ⟨b1, b2⟩ := C66_mi c m h cols' N' hN' h2' hl' b hb
  by_cases hd : m.Defined (rows N cols)
  · rw [a1 hd, b1 ((defined_congr hj m).1 hd), hs, value_congr hj]
  · rw [a2 hd, b2 (fun h' => hd ((defined_congr hj m).2 h'))]

/-- **C66** The mutual information does not depend on the order of the variables. -/
theorem C66_mi_order (c : BiasClass) (m : Method) (h : c.Means m) (cols cols' : List (List Int)) (hp : cols.Perm cols')
    (N : Nat) (hN : 0 < N) (h2 : 2 ≤ cols.length) (hl : ∀ v ∈ cols, v.length = N) (b : Base) (hb : b.Valid) :
    biasMI c cols (some 0) b = biasMI c cols' (some 0) b := by
  refine biasMI_congr h hN hN h2 (hp.length_eq ▸ h2) hl (fun v hv => hl v (hp.mem_iff.2 hv)) hb (hp.map _).sum_eq ?_
  refine sameCounts_map _ _ _ fun s _ t _ => ?_
  rw [row_mem_iff, row_mem_iff]
  exact forall_congr' fun v => by rw [hp.mem_iff]

example := C66_mi_order .shrink .shrink .shrink [[5, 7, 5], [0, 0, 1], [1, 2, 2]] [[1, 2, 2], [5, 7, 5], [0, 0, 1]] (by decide) 3
  (by decide) (by decide) (by decide) (.num 2) (by norm_num [Base.Valid])

/-- **C66** The mutual information does not depend on the order of the observations: reordering all variables by the same
permutation `σ` of the positions changes nothing. -/
theorem C66_mi_sample_order (c : BiasClass) (m : Method) (h : c.Means m) (cols : List (List Int)) (N : Nat) (hN : 0 < N)
    (h2 : 2 ≤ cols.length) (hl : ∀ v ∈ cols, v.length = N) (σ : List Nat) (hσ : σ.Perm (List.range N)) (b : Base)
    (hb : b.Valid) :
    biasMI c (cols.map (fun v => σ.map (fun t => v.getD t default))) (some 0) b = biasMI c cols (some 0) b := by
  have hlen : σ.length = N := by rw [hσ.length_eq, List.length_range]
  refine biasMI_congr h hN hN (by simpa using h2) h2 ?_ hl hb ?_ ?_
  · intro v hv
    obtain ⟨w, _, rfl⟩ := List.mem_map.1 hv
    simpa using hlen
  · rw [List.map_map]
    congr 1
    refine List.map_congr_left fun v hv => ?_
    simp only [Function.comp]
    rw [value_congr (sameCounts_perm (hσ.map (fun t => v.getD t default)))]
    rw [← bias_map_getD_range v (hl v hv)]
  · have e : rows N (cols.map (fun v => σ.map (fun t => v.getD t default))) = σ.map (row cols) := by
      refine List.ext_getElem (by simp [rows, hlen]) fun i hi _ => ?_
      have hi' : i < σ.length := by simpa [rows, hlen] using hi
      simp only [rows, List.getElem_map, List.getElem_range, row, List.map_map]
      refine List.map_congr_left fun v _ => ?_
      simp only [Function.comp]
      rw [List.getD_eq_getElem?_getD, List.getElem?_map, List.getElem?_eq_getElem hi']
      rfl
    rw [e]
    exact sameCounts_perm (hσ.map (row cols))

example := C66_mi_sample_order .shrink .shrink .shrink [[5, 7, 5], [0, 0, 1]] 3 (by decide) (by decide) (by decide) [2, 0, 1]
  (by decide) (.num 2) (by norm_num [Base.Valid])

/-- `w` is `v` with the symbols renamed injectively -/
def Renamed (v w : List Int) : Prop := ∃ f : Int → Int, (∀ x ∈ v, ∀ y ∈ v, f x = f y → x = y) ∧ w = v.map f

theorem renamed_getD {v w : List Int} (h : Renamed v w) {N : Nat} (hl : v.length = N) {s t : Nat} (hs : s < N) (ht : t < N) :
    w.getD s default = w.getD t default ↔ v.getD s default = v.getD t default := by
  obtain ⟨f, hf, rfl⟩ := h
  subst hl
  simp only [List.getD_eq_getElem?_getD, List.getElem?_map, List.getElem?_eq_getElem hs, List.getElem?_eq_getElem ht,
    Option.map_some, Option.getD_some]
  exact ⟨hf _ (List.getElem_mem hs) _ (List.getElem_mem ht), fun e => by rw [e]⟩

theorem renamed_length {v w : List Int} (h : Renamed v w) : w.length = v.length := by
  obtain ⟨f, _, rfl⟩ := h; simp

theorem renamed_same {v w : List Int} (h : Renamed v w) : SameCounts w v := by
  have hw := bias_map_getD_range w (renamed_length h)
  have hv := bias_map_getD_range v rfl
  rw [hw]
  conv => arg 2; rw [hv]
  exact sameCounts_map _ _ _ fun s hs t ht => renamed_getD h rfl (List.mem_range.1 hs) (List.mem_range.1 ht)

/-- **C66** The mutual information depends on the symbols only through their equality: renaming the symbols of each variable
injectively changes nothing. -/
theorem C66_mi_relabel (c : BiasClass) (m : Method) (h : c.Means m) (cols cols' : List (List Int))
    (hr : List.Forall₂ Renamed cols cols') (N : Nat) (hN : 0 < N) (h2 : 2 ≤ cols.length) (hl : ∀ v ∈ cols, v.length = N)
    (b : Base) (hb : b.Valid) : biasMI c cols' (some 0) b = biasMI c cols (some 0) b := by
  have hlen : cols.length = cols'.length := hr.length_eq
  have hrow : ∀ s < N, ∀ t < N, (row cols' s = row cols' t ↔ row cols s = row cols t) ∧
      (cols'.map m.value).sum = (cols.map m.value).sum ∧ ∀ v ∈ cols', v.length = N := by
    intro s hs t ht
    clear h2 hlen
    induction hr with
    | nil => exact ⟨Iff.rfl, rfl, by simp⟩
    | cons hvw _ ih =>
      obtain ⟨i1, i2, i3⟩ := ih (fun v hv => hl v (by simp [hv]))
      have hv := hl _ (List.mem_cons_self ..)
      refine ⟨?_, ?_, ?_⟩
      · simp only [row, List.map_cons, List.cons.injEq] at i1 ⊢
        rw [renamed_getD hvw hv hs ht, i1]
      · simp only [List.map_cons, List.sum_cons, i2, value_congr (renamed_same hvw)]
      · intro u hu
        rcases List.mem_cons.1 hu with rfl | hu
        · rw [renamed_length hvw, hv]
        · exact i3 u hu
  refine biasMI_congr h hN hN (hlen ▸ h2) h2 (hrow 0 hN 0 hN).2.2 hl hb (hrow 0 hN 0 hN).2.1 ?_
  exact sameCounts_map _ _ _ fun s hs t ht => (hrow s (List.mem_range.1 hs) t (List.mem_range.1 ht)).1

example := C66_mi_relabel .shrink .shrink .shrink [[5, 7, 5], [0, 0, 1]] [[8, 8 + 2, 8], [0, 0, -1]]
  (.cons ⟨(· + 3), by simp, by simp⟩ (.cons ⟨(- ·), by simp, by simp⟩ .nil)) 3 (by decide) (by decide) (by decide)
  (.num 2) (by norm_num [Base.Valid])

/-- **C66** Self-information: `I(X;X)` is the estimate of `H(X)` (which exists whenever the method is defined on `X`). -/
theorem C66_mi_self (c : BiasClass) (m : Method) (h : c.Means m) (x : List Int) (hx : x ≠ []) (hd : m.Defined x) (b : Base)
    (hb : b.Valid) : biasMI c [x, x] (some 0) b = .ok (m.value x / b.ln) := by
  have hj : SameCounts (rows x.length [x, x]) x := by
    conv => arg 2; rw [bias_map_getD_range x rfl]
    exact sameCounts_map _ _ _ fun s _ t _ => by rw [row_mem_iff]; simp
  rw [(C66_mi c m h [x, x] x.length (List.length_pos_iff.2 hx) (by simp) (by simp) b hb).1 ((defined_congr hj m).2 hd),
    value_congr hj]
  simp

example := C66_mi_self (.ansb 0) .ansb (.ansb le_rfl) [5, 7, 5] (by decide) (by simp [Spec.Method.Defined]) (.num 2)
  (by norm_num [Base.Valid])

/-- **C66** A constant second variable contributes the estimate of its own entropy: `I(X; const) = H(const)`. -/
theorem C66_mi_constant (c : BiasClass) (m : Method) (h : c.Means m) (x y : List Int) (hx : x ≠ []) (hl : y.length = x.length)
    (hc : ∀ u ∈ y, ∀ v ∈ y, u = v) (hd : m.Defined x) (b : Base) (hb : b.Valid) :
    biasMI c [x, y] (some 0) b = .ok (m.value y / b.ln) := by
  have hget : ∀ s < x.length, y.getD s default ∈ y := by
    intro s hs
    rw [List.getD_eq_getElem?_getD, List.getElem?_eq_getElem (by omega : s < y.length)]
    exact List.getElem_mem _
  have hj : SameCounts (rows x.length [x, y]) x := by
    conv => arg 2; rw [bias_map_getD_range x rfl]
    refine sameCounts_map _ _ _ fun s hs t ht => ?_
    rw [row_mem_iff]
    simp only [List.mem_cons, List.not_mem_nil, or_false, forall_eq_or_imp, forall_eq]
    exact ⟨fun h => h.1, fun h => ⟨h, hc _ (hget s (List.mem_range.1 hs)) _ (hget t (List.mem_range.1 ht))⟩⟩
  rw [(C66_mi c m h [x, y] x.length (List.length_pos_iff.2 hx) (by simp) (by simp [hl]) b hb).1 ((defined_congr hj m).2 hd),
    value_congr hj]
  simp

example := C66_mi_constant .bonachela .bonachela .bonachela [5, 7, 5] [1, 1, 1] (by decide) rfl (by decide) trivial (.num 2)
  (by norm_num [Base.Valid])

section const
variable {α : Type} [DecidableEq α]

theorem toFinset_const {xs : List α} {a : α} (ha : a ∈ xs) (hc : ∀ u ∈ xs, ∀ v ∈ xs, u = v) : xs.toFinset = {a} := by
  ext u; simp only [List.mem_toFinset, Finset.mem_singleton]
  exact ⟨fun hu => hc u hu a ha, fun e => e ▸ ha⟩

theorem cnt_const {xs : List α} {a : α} (ha : a ∈ xs) (hc : ∀ u ∈ xs, ∀ v ∈ xs, u = v) : cnt xs a = xs.length := by
  unfold cnt
  rw [List.countP_eq_length]
  intro u hu
  simpa using hc u hu a ha

theorem freq_const {xs : List α} {a : α} (ha : a ∈ xs) (hc : ∀ u ∈ xs, ∀ v ∈ xs, u = v) : freq xs a = 1 := by
  have : (xs.length : ℝ) ≠ 0 := by
    have := List.length_pos_iff.2 (List.ne_nil_of_mem ha); positivity
  rw [freq, cnt_const ha hc, div_self this]

end const

/-- the methods whose estimate of a constant variable is 0 -/
def _root_.Verif.Spec.Method.NullOnConstants : Method → Prop
  | .chaoShen | .chaoWangJost | .shrink | .zhang | .bayes _ none => True
  | _ => False

theorem shrinkWeight_const {xs : List Int} {a : Int} (ha : a ∈ xs) (hc : ∀ u ∈ xs, ∀ v ∈ xs, u = v) : shrinkProb xs a = 1 := by
  rw [shrinkProb, freq_const ha hc, toFinset_const ha hc]; simp

theorem null_value {m : Method} (hm : m.NullOnConstants) {xs : List Int} (hx : xs ≠ []) (hc : ∀ u ∈ xs, ∀ v ∈ xs, u = v)
    (hp : ∀ p, m = .bayes p none → 0 ≤ p.conc 1 xs.length) : m.value xs = 0 := by
  obtain ⟨a, ha⟩ := List.exists_mem_of_ne_nil xs hx
  have hN := length_pos_real hx
  have hF := toFinset_const ha hc
  have hcn := cnt_const ha hc
  have hfr := freq_const ha hc
  cases m with
  | chaoShen =>
    have hcov : coverage xs = 1 := by
      unfold coverage
      split_ifs with h1
      · have hle : occurring xs 1 ≤ 1 := by
          unfold occurring
          exact (Finset.card_filter_le _ _).trans (by rw [hF]; simp)
        have : (xs.length : ℝ) = 1 := by
          have := List.length_pos_iff.2 hx
          exact_mod_cast (by omega : xs.length = 1)
        rw [this]; simp
      · have : occurring xs 1 = 0 := by
          unfold occurring at h1 ⊢
          rw [hF, Finset.filter_singleton, hcn] at h1 ⊢
          split_ifs at h1 ⊢ with h0
          · exact absurd (by simp [h0]) h1
          · rfl
        rw [this]; simp
    simp [Method.value, Spec.chaoShen, hF, hfr, hcov]
  | chaoWangJost =>
    simp only [Method.value, Spec.chaoWangJost, hF, Finset.sum_singleton, hcn, hfr]
    rw [if_neg]
    · simp
    · rintro ⟨h1, h2⟩
      have hlen : xs.length = 1 := by
        unfold occurring at h1
        rw [hF, Finset.filter_singleton, hcn] at h1
        split_ifs at h1 with h0
        · exact h0
        · simp at h1
      apply h2
      have o2 : occurring xs 2 = 0 := by
        unfold occurring
        rw [hF, Finset.filter_singleton, hcn, if_neg (by omega)]; rfl
      simp only [cwjParam, o2, lt_irrefl, if_false, h1, if_true, hlen]
      norm_num
  | shrink => simp [Method.value, shrinkCross, hF, shrinkWeight_const ha hc]
  | zhang => simp [Method.value, Spec.zhang, hF, hcn]
  | bayes p K =>
    cases K with
    | some k => exact absurd hm (by simp [Method.NullOnConstants])
    | none =>
      have h1 : supportSize xs none = 1 := by simp [supportSize, hF]
      simp only [Method.value, Spec.bayes, hF, Finset.sum_singleton, bayesProb, hcn, h1, one_mul]
      have := hp p rfl
      rw [div_self (by positivity)]
      simp
  | _ => exact absurd hm (by simp [Method.NullOnConstants])

theorem means_prior {c : BiasClass} {p : Prior} (h : c.Means (.bayes p none)) {N : ℝ} : 0 ≤ p.conc 1 N := by
  cases h with
  | bayesNum h0 => exact h0
  | bayesStr hp => exact (namesPrior_getAlpha hp one_pos).2

/-- **C66** For Chao–Shen, Chao–Wang–Jost, shrinkage, Zhang and Bayes with the observed support, a constant variable carries no
information about anything. -/
theorem C66_mi_constant_zero (c : BiasClass) (m : Method) (h : c.Means m) (hm : m.NullOnConstants) (x y : List Int)
    (hx : x ≠ []) (hl : y.length = x.length) (hc : ∀ u ∈ y, ∀ v ∈ y, u = v) (b : Base) (hb : b.Valid) :
    biasMI c [x, y] (some 0) b = .ok 0 := by
  have hd : m.Defined x := by
    cases m with
    | ansb => exact absurd hm (by simp [Method.NullOnConstants])
    | _ => trivial
  have hy : y ≠ [] := ne_nil_of_length (List.length_pos_iff.2 hx) hl
  rw [C66_mi_constant c m h x y hx hl hc hd b hb, null_value hm hy hc (fun p e => by subst e; exact means_prior h), zero_div]

example := C66_mi_constant_zero .zhang .zhang .zhang trivial [5, 7, 5] [1, 1, 1] (by decide) rfl (by decide) (.num 2)
  (by norm_num [Base.Valid])

/-- **C66** (finding) Bonachela's estimator reports positive information between anything and a constant:
`(N+1) / (N+2)²` nats. -/
theorem C66_bonachela_constant_positive (x y : List Int) (hx : x ≠ []) (hl : y.length = x.length)
    (hc : ∀ u ∈ y, ∀ v ∈ y, u = v) (b : Base) (hb : b.Std) :
    biasMI .bonachela [x, y] (some 0) b = .ok (((x.length : ℝ) + 1) / ((x.length : ℝ) + 2) ^ 2 / b.ln) ∧
    0 < ((x.length : ℝ) + 1) / ((x.length : ℝ) + 2) ^ 2 / b.ln := by
  have hy : y ≠ [] := ne_nil_of_length (List.length_pos_iff.2 hx) hl
  obtain ⟨a, ha⟩ := List.exists_mem_of_ne_nil y hy
  refine ⟨?_, div_pos (by positivity) hb.ln_pos⟩
  rw [C66_mi_constant _ _ .bonachela x y hx hl hc trivial b hb.valid]
  simp only [Method.value, Spec.bonachela, toFinset_const ha hc, Finset.sum_singleton, cnt_const ha hc, Finset.Icc_self, hl]
  congr 2
  push_cast
  have : (x.length : ℝ) + 2 ≠ 0 := by positivity
  field_simp

example := C66_bonachela_constant_positive [5, 7, 5] [1, 1, 1] (by decide) rfl (by decide) (.num 2) (by norm_num [Base.Std])

/-- **C66** (finding) Grassberger's estimator reports *negative* information: two observations of a constant pair give
`log 2 + γ − 4/3 < 0` nats. -/
theorem C66_grassberger_negative (b : Base) (hb : b.Std) :
    biasMI .grassberger [[0, 0], [0, 0]] (some 0) b = .ok ((Real.log 2 + Real.eulerMascheroniConstant - 4 / 3) / b.ln) ∧
    (Real.log 2 + Real.eulerMascheroniConstant - 4 / 3) / b.ln < 0 := by
  constructor
  · rw [C66_mi_self _ _ .grassberger [0, 0] (by simp) trivial b hb.valid]
    have hF : ([0, 0] : List Int).toFinset = {0} := by decide
    have hcn : cnt ([0, 0] : List Int) 0 = 2 := by decide
    simp only [Method.value, Spec.grassberger, hF, Finset.sum_singleton, freq, hcn, psi]
    norm_num
    ring
  · refine div_neg_of_neg_of_pos ?_ hb.ln_pos
    have h1 := Real.eulerMascheroniConstant_lt_eulerMascheroniSeq' 16
    have h2 := Real.log_two_gt_d9
    have h3 : Real.log (16 : ℝ) = 4 * Real.log 2 := by
      rw [show (16 : ℝ) = 2 ^ (4 : ℕ) by norm_num, Real.log_pow]; norm_num
    have h4 : ((harmonic 16 : ℚ) : ℝ) < 3.381 := by
      have : harmonic 16 < 3.381 := by norm_num [harmonic, Finset.sum_range_succ]
      have h := (Rat.cast_lt (K := ℝ)).2 this
      norm_num at h ⊢
    rw [Real.eulerMascheroniSeq', if_neg (by norm_num)] at h1
    rw [show (((16 : ℕ) : ℝ)) = 16 by norm_num, h3] at h1
    linarith

example := C66_grassberger_negative (.num 2) (by norm_num [Base.Std])

/-- **C66** A constant source transfers exactly nothing, in every class (where the estimate exists). -/
theorem C66_te_constant_source (c : BiasClass) (m : Method) (h : c.Means m) (source dest : List Int) (l k s : Nat) (hs : 0 < s)
    (hl : 0 < l) (hk : 0 < k) (hm : max k l * s < source.length) (hlen : source.length = dest.length)
    (hc : ∀ x ∈ source, ∀ y ∈ source, x = y) (b : Base) (hb : b.Valid) (rnd : SrcRandom) (hr : rnd.Lawful)
    (hd : m.Defined ((futRows dest dest.length (max k l) s).zip (histRows dest dest.length (max k l) s k))) :
    biasTE c source dest (teParams l k s) (some (.int 0)) none b rnd = .ok 0 := by
  have hm' : max k l * s < dest.length := hlen ▸ hm
  set R := numRows dest.length (max k l) s with hR
  have key := C66_te c m h source dest l k s hs hl hk hm hlen b hb rnd hr
  simp only [] at key
  rw [srcRows_eq _ _ _ _ _ hr, ← hR] at key
  set g : Nat → List Int := fun i => histRow source (max k l) s l ((srcSel rnd R).getD i 0) with hg
  have hF : futRows dest dest.length (max k l) s = (List.range R).map (fun i => [dest.getD ((max k l + i) * s) default]) := rfl
  have hD : histRows dest dest.length (max k l) s k = (List.range R).map (histRow dest (max k l) s k) := rfl
  rw [hF, hD] at key hd
  have hgc : ∀ u ∈ List.range R, ∀ v ∈ List.range R, g u = g v := by
    intro u hu v hv
    have hin : ∀ w ∈ List.range R, ∀ j < l, source.getD ((max k l + (srcSel rnd R).getD w 0 - l + j) * s) default ∈ source := by
      intro w hw j hj
      have hw := List.mem_range.1 hw
      have hw' : w < (srcSel rnd R).length := by rw [srcSel_length hr]; exact hw
      have h1 : (srcSel rnd R).getD w 0 < R := by
        refine srcSel_lt hr R _ ?_
        rw [List.getD_eq_getElem?_getD, List.getElem?_eq_getElem hw', Option.getD_some]
        exact List.getElem_mem hw'
      have h2 := (lt_numRows (i := (srcSel rnd R).getD w 0) hs hm').1 h1
      have h3 : (max k l + (srcSel rnd R).getD w 0 - l + j) * s ≤ (max k l + (srcSel rnd R).getD w 0) * s :=
        Nat.mul_le_mul_right s (by omega)
      have h4 : (max k l + (srcSel rnd R).getD w 0 - l + j) * s < source.length := by omega
      rw [List.getD_eq_getElem?_getD, List.getElem?_eq_getElem h4, Option.getD_some]
      exact List.getElem_mem h4
    simp only [hg, histRow]
    refine List.map_congr_left fun j hj => ?_
    exact hc _ (hin u hu j (List.mem_range.1 hj)) _ (hin v hv j (List.mem_range.1 hj))
  simp only [zip_range_map] at key hd
  have sJ : SameCounts ((List.range R).map (fun t => ([dest.getD ((max k l + t) * s) default], g t, histRow dest (max k l) s k t)))
      ((List.range R).map (fun t => ([dest.getD ((max k l + t) * s) default], histRow dest (max k l) s k t))) :=
    sameCounts_map _ _ _ fun u hu v hv => by
      rw [Prod.mk.injEq, Prod.mk.injEq, Prod.mk.injEq]
      exact ⟨fun e => ⟨e.1, e.2.2⟩, fun e => ⟨e.1, hgc u hu v hv, e.2⟩⟩
  have sG : SameCounts ((List.range R).map (fun t => (g t, histRow dest (max k l) s k t)))
      ((List.range R).map (histRow dest (max k l) s k)) :=
    sameCounts_map _ _ _ fun u hu v hv => by
      rw [Prod.mk.injEq]
      exact ⟨fun e => e.2, fun e => ⟨hgc u hu v hv, e⟩⟩
  rw [key.1 ((defined_congr sJ m).2 hd), value_congr sJ, value_congr sG]
  simp

example := C66_te_constant_source .zhang .zhang .zhang [5, 5, 5, 5, 5] [0, 0, 1, 1, 0] 1 2 1 (by decide) (by decide) (by decide)
  (by decide) rfl (by decide) (.num 2) (by norm_num [Base.Valid]) {} lawful_none trivial

/-- **C66** Given any condition, a constant variable has no conditional mutual information with anything, in every class (where the
estimate exists). -/
theorem C66_cmi_constant (c : BiasClass) (m : Method) (h : c.Means m) (x y z : List Int) (hN : 0 < z.length)
    (hx : x.length = z.length) (hy : y.length = z.length) (hc : ∀ u ∈ y, ∀ v ∈ y, u = v) (hd : m.Defined (x.zip z)) (b : Base)
    (hb : b.Valid) : biasCMI c [x, y] z (some 0) b = .ok 0 := by
  have hget : ∀ s < z.length, y.getD s default ∈ y := by
    intro s hs
    rw [List.getD_eq_getElem?_getD, List.getElem?_eq_getElem (by omega : s < y.length)]
    exact List.getElem_mem _
  have sJ : SameCounts ((rows z.length [x, y]).zip z) (x.zip z) := by
    rw [rows_zip_getD _ z rfl, zip_getD x z hx rfl]
    refine sameCounts_map _ _ _ fun s hs t ht => ?_
    rw [Prod.mk.injEq, Prod.mk.injEq, row_mem_iff]
    simp only [List.mem_cons, List.not_mem_nil, or_false, forall_eq_or_imp, forall_eq]
    exact ⟨fun h => ⟨h.1.1, h.2⟩,
      fun h => ⟨⟨h.1, hc _ (hget s (List.mem_range.1 hs)) _ (hget t (List.mem_range.1 ht))⟩, h.2⟩⟩
  have sY : SameCounts (y.zip z) z := by
    conv => arg 2; rw [bias_map_getD_range z rfl]
    rw [zip_getD y z hy rfl]
    refine sameCounts_map _ _ _ fun s hs t ht => ?_
    rw [Prod.mk.injEq]
    exact ⟨fun h => h.2, fun h => ⟨hc _ (hget s (List.mem_range.1 hs)) _ (hget t (List.mem_range.1 ht)), h⟩⟩
  rw [(C66_cmi c m h [x, y] z hN (by simp) (by simp [hx, hy]) b hb).1 ((defined_congr sJ m).2 hd), value_congr sJ]
  simp [value_congr sY]

example := C66_cmi_constant .bonachela .bonachela .bonachela [5, 7, 5] [1, 1, 1] [0, 0, 1] (by decide) rfl rfl (by decide) trivial
  (.num 2) (by norm_num [Base.Valid])

/-! ## Parameter errors -/

/-- keyword arguments the constructor rejects: a Bayes `alpha` that is neither number nor string, a Bayes `K` that is neither `None`
nor a positive integer, a negative `undersampled` of ANSB -/
def BiasClass.BadArgs : BiasClass → Prop
  | .bayes alpha K => alpha = .other ∨ (K ≠ none ∧ ∀ k : Int, 0 < k → K ≠ some (.int k))
  | .ansb u => u < 0
  | _ => False

/-- **C66** Bad keyword arguments are a ValueError in all four measures, before anything is computed, whatever the data (of valid
shape). -/
theorem C66_bad_arguments (c : BiasClass) (hc : c.BadArgs) (b : Base) :
    (∀ cols o d, miInit cols o = .ok d → biasMI c cols o b = .error .valueError) ∧
    (∀ cols z o d, cmiInit cols (some z) o = .ok d → biasCMI c cols z o b = .error .valueError) ∧
    (∀ source dest p pt o d rnd, teInit source dest pt o p.step = .ok d →
      biasTE c source dest p pt o b rnd = .error .valueError) ∧
    (∀ source dest z p ch pt o d, cteInit source dest z pt o = .ok d →
      biasCTE c source dest z p ch pt o b = .error .valueError) := by
  have hk : c.check = .error .valueError := by
    cases c with
    | bayes alpha K =>
      cases alpha with
      | other => rfl
      | _ =>
        obtain ⟨h1, h2⟩ := hc.resolve_left (by simp)
        cases K with
        | none => exact absurd rfl h1
        | some K =>
          cases K with
          | int k =>
            by_cases hk : 0 < k
            · exact absurd rfl (h2 k hk)
            · simp only [BiasClass.check]; rw [if_pos (by omega)]
          | _ => rfl
    | ansb u => simp only [BiasClass.check]; rw [if_pos (show u < 0 from hc)]
    | _ => exact absurd hc (by simp [BiasClass.BadArgs])
  refine ⟨?_, ?_, ?_, ?_⟩
  · intro cols o d h
    simp only [biasMI, h, hk, bind, Except.bind]
  · intro cols z o d h
    simp only [biasCMI, h, hk, bind, Except.bind]
  · intro source dest p pt o d rnd h
    simp only [biasTE, h, hk, bind, Except.bind]
  · intro source dest z p ch pt o d h
    simp only [biasCTE, h, hk, bind, Except.bind]

example := And.intro (C66_bad_arguments (.ansb (-1)) (by norm_num [BiasClass.BadArgs]) .e)
  (C66_bad_arguments (.bayes (.num 1) (some .other)) (.inr ⟨by simp, by simp⟩) .e)

/-- **C66** An unknown prior name is a ValueError of the mutual information call. -/
theorem C66_unknown_prior (s : String) (hs : s.toLower ∉ ["jeffrey", "laplace", "sch-grass", "min-max"]) (cols : List (List Int))
    (N : Nat) (hN : 0 < N) (h2 : 2 ≤ cols.length) (hl : ∀ v ∈ cols, v.length = N) (b : Base) :
    biasMI (.bayes (.str s) none) cols (some 0) b = .error .valueError := by
  have hc0 : cols ≠ [] := by rintro rfl; simp at h2
  have hne : ∀ v ∈ cols, v ≠ [] := fun v hv => ne_nil_of_length hN (hl v hv)
  simp only [biasMI, miInit_ok h2 hl, BiasClass.check, genericMI, bind, Except.bind, mapM_hConstruct cols hne,
    hConstruct_tup hN hc0 hl, BiasClass.est]
  cases cols with
  | nil => exact absurd rfl hc0
  | cons v vs =>
    simp only [combineH, List.map_cons, List.mapM_cons, bayesH, bind, Except.bind, bayesSimple, bayesProbs, getAlpha, if_pos hs]
    simp

/-! ## Concrete cases -/

example : BiasClass.Means (.bayes (.str "min-max") (some (.int 4))) (.bayes .minimax (some 4)) :=
  .bayesStrK (.inr (.inr (.inr ⟨rfl, rfl⟩))) (by norm_num)

example : (Method.ansb).Defined (rows 3 [[0, 0, 1], [5, 5, (5 : Int)]]) ∧
    ¬ (Method.ansb).Defined (rows 3 [[0, 0, 1], [5, 6, (5 : Int)]]) := by
  simp only [Method.Defined]; decide

example : Renamed [0, 1, 0] [7, -2, 7] := ⟨fun n => 7 - 9 * n, by decide, by decide⟩

example : (BiasClass.ansb (-1)).BadArgs ∧ (BiasClass.bayes (.num 1) (some (.int 0))).BadArgs :=
  ⟨by norm_num [BiasClass.BadArgs], .inr ⟨by simp, by intro k hk h; simp at h; omega⟩⟩

example : ∃ (source dest : List Int) (l k s : Nat), 0 < s ∧ 0 < l ∧ 0 < k ∧ max k l * s < source.length ∧
    source.length = dest.length ∧ (∀ x ∈ source, ∀ y ∈ source, x = y) ∧
    Method.ansb.Defined ((futRows dest dest.length (max k l) s).zip (histRows dest dest.length (max k l) s k)) :=
  ⟨[3, 3, 3, 3, 3], [0, 0, 0, 0, 1], 1, 1, 1, by decide, by decide, by decide, by decide, by decide, by decide,
    by simp only [Method.Defined]; decide⟩

end Verif
