import Verif.Props.OrdinalTE

/-! # C57 (continued): consequences, conditional form, guards, statistical tests -/

namespace Verif

open Spec

variable {α : Type} [LinearOrder α] [Inhabited α]

/-- **C57** The ordinal transfer entropy is never negative. -/
theorem C57_nonneg (q : Argsort α) (x y : List α) (hxy : x.length = y.length) (d s l k : Nat)
    (hd : 1 ≤ d) (hd' : d ≤ 20) (hs : 1 ≤ s) (hl : 0 < l) (hk : 0 < k)
    (hn : (d - 1) * s + max k l * s < x.length) (hov : x.length < 2 ^ 32) (stable : Bool)
    (b : Base) (hb : b.Std) :
    ∃ t, ordTE q x y (ordTEParams d l k s stable) (some (.int 0)) none b = .ok t ∧ 0 ≤ t := by
  set N := x.length - (d - 1) * s with hN
  have hm : max k l * s < N := by omega
  rw [ordTE_eq_discrete q x y hxy l k hd hd' hs (by omega) stable b {}]
  refine ⟨_, C24_te_is_textbook _ _ l k s hs hl hk (by simpa using hm) (by simp) (by simp; omega) b hb.valid, ?_⟩
  exact div_nonneg (cmi_nonneg _ _ _ (by simp [futRows, histRows]) (by simp [histRows])) hb.ln_pos.le

example := C57_nonneg stableSort [3, 1, 1, 5, 4, 0] [2, 7, 1, 5, 0, 3] rfl 3 1 1 2 (by decide) (by decide) (by decide) (by decide) (by decide) (by decide) (by decide) false (.num 2) (by norm_num [Base.Std])

/-- **C57** With embedding dimension 1 the ordinal transfer entropy is 0 (also under permutation of the
source). -/
theorem C57_dim_one_zero (q : Argsort α) (x y : List α) (hxy : x.length = y.length) (s l k : Nat)
    (hs : 1 ≤ s) (hl : 0 < l) (hk : 0 < k) (hn : max k l * s < x.length) (hov : x.length < 2 ^ 32)
    (stable : Bool) (b : Base) (hb : b.Valid) (rnd : SrcRandom) (hr : rnd.Lawful) :
    ordTE q x y (ordTEParams 1 l k s stable) (some (.int 0)) none b rnd = .ok 0 := by
  rw [ordTE_eq_discrete q x y hxy l k (le_refl 1) (by omega) hs (by omega) stable b rnd]
  refine C24_constant_source _ _ l k s hs hl hk (by simpa using hn) (by simp) (by simpa using hov) b hb false rnd hr ?_
  have hone : ∀ w : List α, w.length = 1 → sortFun q stable w = [0] := by
    intro w hw
    have := (sortFun_isArgsort q stable w).perm
    rw [hw] at this
    exact List.perm_singleton.1 this
  intro a ha c hc
  obtain ⟨i, hi, rfl⟩ := List.mem_map.1 ha
  obtain ⟨j, hj, rfl⟩ := List.mem_map.1 hc
  unfold ordCode
  rw [hone _ (by simp [win]), hone _ (by simp [win])]

example := C57_dim_one_zero stableSort [3, 1, 2, 5, 4, 0] [2, 7, 1, 5, 0, 3] rfl 1 1 2 (by decide) (by decide) (by decide) (by decide) (by decide) false (.num 2) (by norm_num [Base.Valid]) {} lawful_none

/-- **C57** Strictly increasing maps of the series change nothing, for all parameters and any
permutation state (with ties: under stable sorting). -/
theorem C57_invariant_under_increasing_maps {β : Type} [LinearOrder β] [Inhabited β] (q : Argsort α)
    (q' : Argsort β) (x y : List α) (f g : α → β) (hf : StrictMono f) (hg : StrictMono g) (d s : Nat)
    (l k : PyArg) (stable : Bool) (htx : stable = true ∨ TieFree x d s) (hty : stable = true ∨ TieFree y d s)
    (hxy : x.length = y.length) (b : Base) (rnd : SrcRandom) :
    let p : OrdTEParams :=
      { dim := .int d, stable := stable, te := { srcHist := l, destHist := k, step := .int s } }
    ordTE q' (x.map f) (y.map g) p (some (.int 0)) none b rnd =
    ordTE q x y p (some (.int 0)) none b rnd := by
  intro p
  have hx := (C27_invariant_under_increasing_maps q q' x f hf d s stable htx).2
  have hy := (C27_invariant_under_increasing_maps q q' y g hg d s stable hty).2
  unfold ordTE
  rw [teInit_zero hxy, teInit_zero (show (x.map f).length = (y.map g).length by simpa using hxy)]
  simp only [bind, Except.bind, List.length_map]
  by_cases hc : ordPairChecks 0 x.length (.int d) (.int s) = .ok ((d : Int), (s : Int))
  · have e : ordPairChecks 0 x.length p.dim p.te.step = .ok ((d : Int), (s : Int)) := hc
    simp only [e]
    have es : p.stable = stable := rfl
    rw [es, hx, hy]
  · have : ∃ e, ordPairChecks 0 x.length p.dim p.te.step = .error e := by
      show ∃ e, ordPairChecks 0 x.length (.int d) (.int s) = .error e
      unfold ordPairChecks at hc ⊢
      split_ifs at hc ⊢
      · exact ⟨_, rfl⟩
      · exact ⟨_, rfl⟩
      · exact ⟨_, rfl⟩
      · exact absurd rfl hc
    obtain ⟨e, he⟩ := this
    simp only [he]

example := C57_invariant_under_increasing_maps stableSort stableSort [3, 1, 1, 5, 4, 0] [2, 7, 1, 5, 0, 3] (fun x => 2 * x + 1) (fun x => x + 7)
  (fun a b h => by simpa using h) (fun a b h => by simpa using h) 3 1 (.int 1) (.int 2) true (.inl rfl) (.inl rfl) rfl .e {}

/-- **C57** One local value per embedded row, and their mean is the global value (any permutation
state). -/
theorem C57_local_mean (q : Argsort α) (x y : List α) (hxy : x.length = y.length) (d s l k : Nat)
    (hd : 1 ≤ d) (hd' : d ≤ 20) (hs : 1 ≤ s) (hl : 0 < l) (hk : 0 < k)
    (hn : (d - 1) * s + max k l * s < x.length) (hov : x.length < 2 ^ 32) (stable : Bool)
    (b : Base) (hb : b.Valid) (rnd : SrcRandom) (hr : rnd.Lawful) :
    ∃ t ls, ordTE q x y (ordTEParams d l k s stable) (some (.int 0)) none b rnd = .ok t ∧
      ordTELocal q x y (ordTEParams d l k s stable) (some (.int 0)) none b rnd = .ok ls ∧
      ls.length = numRows (x.length - (d - 1) * s) (max k l) s ∧ Spec.mean ls = t := by
  set N := x.length - (d - 1) * s with hN
  have hm : max k l * s < N := by omega
  obtain ⟨g, ls, h1, h2, h3, h4⟩ := C24_local_te_mean ((List.range N).map (ordCode q stable x d s))
    ((List.range N).map (ordCode q stable y d s)) l k s hs hl hk (by simpa using hm) (by simp)
    (by simp; omega) b hb false rnd hr
  simp only [List.length_map, List.length_range] at h3
  refine ⟨g, ls, ?_, ?_, h3, h4⟩
  · rw [ordTE_eq_discrete q x y hxy l k hd hd' hs (by omega) stable b rnd]
    exact h1
  · have hc := ordPairChecks_ok (lo := 0) (n := x.length) (d := d) (s := s) (by omega) (by omega) hd
    have hy := symbolizeInt_win q y hd hd' hs (by rw [← hxy]; omega) stable
    rw [← hxy] at hy
    rw [← h2]
    unfold discreteTE discreteTELocal at *
    rw [teInit_zero (by simp)] at h1 ⊢
    unfold ordTELocal ordTEParams
    simp only [teInit_zero hxy, bind, Except.bind] at h1 ⊢
    simp only [teParams, hc, symbolizeInt_win q x hd hd' hs (by omega) stable, hy] at h1 ⊢
    cases hobs : teObservations ((List.range N).map (ordCode q stable x d s))
      ((List.range N).map (ordCode q stable y d s)) (.int l) (.int k) (.int s) rnd with
    | error e => simp [hobs] at h1
    | ok sl =>
      rw [hobs] at h1
      simp only [Bool.false_eq_true, if_false] at h1 ⊢
      simp only [h1]

example := C57_local_mean stableSort [3, 1, 1, 5, 4, 0] [2, 7, 1, 5, 0, 3] rfl 3 1 1 2 (by decide) (by decide) (by decide) (by decide) (by decide) (by decide) (by decide) false (.num 2) (by norm_num [Base.Valid]) {} lawful_none

/-- **C57** For two aligned series and a dimension of at most 20, the estimate is defined exactly when
dimension, step and history lengths are positive integers and one embedded row of patterns fits;
everything else is a ValueError. -/
theorem C57_guard_exact (q : Argsort α) (x y : List α) (hxy : x.length = y.length) (p : OrdTEParams)
    (h20 : ∀ d : Int, p.dim = .int d → d ≤ 20)
    (hov : x.length < 2 ^ 32) (b : Base) (hb : b.Std) :
    let valid := ∃ d s l k : Nat, p.dim = .int d ∧ p.te.step = .int s ∧ p.te.srcHist = .int l ∧
      p.te.destHist = .int k ∧ 1 ≤ d ∧ 1 ≤ s ∧ 1 ≤ l ∧ 1 ≤ k ∧ (d - 1) * s + max k l * s < x.length
    ((∃ t, ordTE q x y p (some (.int 0)) none b = .ok t) ↔ valid) ∧
    (ordTE q x y p (some (.int 0)) none b = .error .valueError ↔ ¬ valid) := by
  intro valid
  have key : (valid ∧ ∃ I, ordTE q x y p (some (.int 0)) none b = .ok I) ∨
      (¬ valid ∧ ordTE q x y p (some (.int 0)) none b = .error .valueError) := by
    by_cases hv : valid
    · refine Or.inl ⟨hv, ?_⟩
      obtain ⟨d, s, l, k, h1, h2, h3, h4, h5, h6, h7, h8, h9⟩ := hv
      have hd' : d ≤ 20 := by have := h20 d h1; omega
      obtain ⟨t, ht, -⟩ := C57_nonneg q x y hxy d s l k h5 hd' h6 h7 h8 h9 hov p.stable b hb
      refine ⟨t, ?_⟩
      rw [← ht]
      cases p with
      | mk dim stable te ch =>
        cases te with
        | mk a b' c =>
          simp only at h1 h2 h3 h4; subst h1; subst h2; subst h3; subst h4; rfl
    · refine Or.inr ⟨hv, ?_⟩
      unfold ordTE
      simp only [teInit_zero hxy, bind, Except.bind]
      unfold ordPairChecks
      by_cases h1 : p.dim.intGe 0 = false
      · rw [if_pos h1]
      rw [if_neg h1]
      by_cases h2 : p.te.step.intGe 0 = false
      · rw [if_pos h2]
      rw [if_neg h2]
      by_cases h3 : (x.length : Int) < (p.dim.val - 1) * p.te.step.val + 1
      · rw [if_pos h3]
      rw [if_neg h3]
      simp only
      cases hdim : p.dim with
      | num x => rw [hdim] at h1; simp [PyArg.intGe] at h1
      | other => rw [hdim] at h1; simp [PyArg.intGe] at h1
      | int dd =>
        cases hstep : p.te.step with
        | num x => rw [hstep] at h2; simp [PyArg.intGe] at h2
        | other => rw [hstep] at h2; simp [PyArg.intGe] at h2
        | int ss =>
          rw [hdim, hstep] at h3
          rw [hdim] at h1
          rw [hstep] at h2
          simp only [PyArg.intGe, decide_eq_false_iff_not, not_not] at h1 h2
          simp only [PyArg.val] at h3 ⊢
          obtain ⟨d, rfl⟩ := Int.eq_ofNat_of_zero_le h1
          obtain ⟨s, rfl⟩ := Int.eq_ofNat_of_zero_le h2
          have hd20 : d ≤ 20 := by have := h20 d hdim; omega
          by_cases hd0 : d = 0
          · subst hd0; simp [symbolizeInt, symbolize, bind, Except.bind]
          by_cases hs0 : s = 0
          · subst hs0
            have : ¬ ((d : Int) < 1) := by omega
            simp [symbolizeInt, symbolize, bind, Except.bind, this]
          have hn : (d - 1) * s < x.length := by
            have : ((d : Int) - 1) = ((d - 1 : Nat) : Int) := by omega
            rw [this] at h3
            have : ¬ ((x.length : Int) < (((d - 1) * s : Nat) : Int) + 1) := by push_cast; exact h3
            omega
          have hy := symbolizeInt_win q y (d := d) (s := s) (by omega) hd20 (by omega) (hxy ▸ hn) p.stable
          rw [← hxy] at hy
          rw [symbolizeInt_win q x (by omega) hd20 (by omega) hn p.stable, hy]
          simp only
          have hg := (C21_te_guard_exact
            ((List.range (x.length - (d - 1) * s)).map (ordCode q p.stable x d s))
            ((List.range (x.length - (d - 1) * s)).map (ordCode q p.stable y d s)) p.te.srcHist p.te.destHist
            (.int s) {} (by simp [SrcRandom.Contract]) (by simp)).2.2
          rw [hg.2 ⟨by simp, ?_⟩]
          rintro ⟨l, k, s', e1, e2, e3, hl, hk, hs', hm, -⟩
          simp only [PyArg.int.injEq, Nat.cast_inj] at e3
          subst e3
          apply hv
          refine ⟨d, s, l, k, hdim, hstep, e1, e2, by omega, by omega, hl, hk, ?_⟩
          rw [max_comm] at hm
          simp only [List.length_map, List.length_range] at hm
          omega
  rcases key with ⟨hv, t, ht⟩ | ⟨hv, he⟩
  · refine ⟨⟨fun _ => hv, fun _ => ⟨t, ht⟩⟩, ?_⟩
    rw [ht]; simp [hv]
  · refine ⟨?_, ?_⟩
    · rw [he]; simp [hv]
    · rw [he]; simp [hv]

example := C57_guard_exact stableSort [3, 1, 1, 5, 4, 0] [2, 7, 1, 5, 0, 3] rfl (ordTEParams 3 1 2 1 false) (by simp [ordTEParams]) (by decide) (.num 2) (by norm_num [Base.Std])

/-- the ordinal conditional transfer entropy is the discrete one of the integer-coded patterns -/
theorem ordCTE_eq_discrete (q : Argsort α) (x y z : List α) (hxy : x.length = y.length)
    (hzy : z.length = y.length) {d s : Nat}
    (l k c : Nat) (hd : 1 ≤ d) (hd' : d ≤ 20) (hs : 1 ≤ s) (hn : (d - 1) * s < x.length) (stable : Bool)
    (b : Base) :
    let N := x.length - (d - 1) * s
    ordCTE q x y (some z) (ordTEParams d l k s stable c) (some (.int 0)) none b =
      discreteCTE ((List.range N).map (ordCode q stable x d s))
        ((List.range N).map (ordCode q stable y d s)) (some ((List.range N).map (ordCode q stable z d s)))
        (teParams l k s) (.int c) (some (.int 0)) none b := by
  intro N
  unfold ordCTE ordTEParams
  simp only [cteInit_zero hxy hzy, bind, Except.bind]
  have hc := ordPairChecks_ok (lo := 0) (n := x.length) (d := d) (s := s) (by omega) hn hd
  have hy := symbolizeInt_win q y hd hd' hs (hxy ▸ hn) stable
  have hz := symbolizeInt_win q z hd hd' hs (by rw [hzy, ← hxy]; exact hn) stable
  rw [hzy] at hz
  rw [← hxy] at hy hz
  simp only [teParams, hc, symbolizeInt_win q x hd hd' hs hn stable, hy, hz]
  unfold discreteCTE
  rw [cteInit_zero (by simp) (by simp)]
  simp only [bind, Except.bind, N]
  split
  · rfl
  · simp

/-- **C57** For tie-free series the ordinal conditional transfer entropy is the textbook conditional
transfer entropy of the three ordinal pattern sequences, and non-negative. -/
theorem C57_ordinal_cte_is_textbook (q : Argsort α) (x y z : List α) (hxy : x.length = y.length)
    (hzy : z.length = y.length) (d s l k c : Nat)
    (hd : 1 ≤ d) (hd' : d ≤ 20) (hs : 1 ≤ s) (hl : 0 < l) (hk : 0 < k) (hc : 0 < c)
    (hn : (d - 1) * s + max (max k l) c * s < x.length) (hov : x.length < 2 ^ 32) (stable : Bool)
    (htx : TieFree x d s) (hty : TieFree y d s) (htz : TieFree z d s) (b : Base) (hb : b.Std) :
    let N := x.length - (d - 1) * s
    let m := max (max k l) c
    ∃ t, ordCTE q x y (some z) (ordTEParams d l k s stable c) (some (.int 0)) none b = .ok t ∧
      t = Spec.cmi (futRows (ordPatterns y d s) N m s) (histRows (ordPatterns x d s) N m s l)
        ((histRows (ordPatterns y d s) N m s k).zip (histRows (ordPatterns z d s) N m s c)) / b.ln ∧ 0 ≤ t := by
  intro N m
  have hm : m * s < N := by
    show max (max k l) c * s < x.length - (d - 1) * s
    omega
  have e := ordCTE_eq_discrete q x y z hxy hzy l k c hd hd' hs (by omega) stable b
  simp only at e
  rw [e]
  obtain ⟨t, ht, hv, h0⟩ := C24_cte_is_textbook ((List.range N).map (ordCode q stable x d s))
    ((List.range N).map (ordCode q stable y d s)) ((List.range N).map (ordCode q stable z d s))
    l k c s hs hl hk hc (by rw [List.length_map, List.length_range]; exact hm) (by simp) (by simp) (by simp; omega) b hb
  refine ⟨t, ht, ?_, h0⟩
  rw [hv]
  simp only [List.length_map, List.length_range]
  congr 1
  have hzl : z.length = x.length := hzy.trans hxy.symm
  rw [ordPatterns_win, ordPatterns_win, ordPatterns_win, ← hxy, hzl]
  have hx' : ∀ i j, i < N → j < N → (ordCode q stable x d s i = ordCode q stable x d s j ↔
      rankPattern (win x d s i) = rankPattern (win x d s j)) := fun i j hi hj => ordCode_iff q stable htx hi hj
  have hy' : ∀ i j, i < N → j < N → (ordCode q stable y d s i = ordCode q stable y d s j ↔
      rankPattern (win y d s i) = rankPattern (win y d s j)) := fun i j hi hj =>
    ordCode_iff q stable hty (by rw [← hxy]; exact hi) (by rw [← hxy]; exact hj)
  have hz' : ∀ i j, i < N → j < N → (ordCode q stable z d s i = ordCode q stable z d s j ↔
      rankPattern (win z d s i) = rankPattern (win z d s j)) := fun i j hi hj =>
    ordCode_iff q stable htz (by rw [hzl]; exact hi) (by rw [hzl]; exact hj)
  have hlm : l ≤ m := le_trans (le_max_right k l) (le_max_left _ _)
  have hkm : k ≤ m := le_trans (le_max_left k l) (le_max_left _ _)
  have hcm : c ≤ m := le_max_right _ _
  unfold futRows histRows
  rw [zip_map_map, zip_map_map]
  refine cmi_relabel _ _ _ _ _ _ _
    (fun u hu v hv => futRow_relabel _ _ hs hm hy' (List.mem_range.1 hu) (List.mem_range.1 hv))
    (fun u hu v hv => histRow_relabel _ _ hs hm hlm hx' (List.mem_range.1 hu) (List.mem_range.1 hv))
    (fun u hu v hv => ?_)
  simp only [Prod.mk.injEq]
  exact and_congr (histRow_relabel _ _ hs hm hkm hy' (List.mem_range.1 hu) (List.mem_range.1 hv))
    (histRow_relabel _ _ hs hm hcm hz' (List.mem_range.1 hu) (List.mem_range.1 hv))

example := C57_ordinal_cte_is_textbook stableSort [3, 1, 2, 5, 4, 0] [2, 7, 1, 5, 0, 3] [1, 0, 4, 2, 6, 5] rfl rfl 3 1 1 2 1 (by decide) (by decide) (by decide) (by decide) (by decide) (by decide) (by decide) (by decide) false (by unfold TieFree delayVectors; decide) (by unfold TieFree delayVectors; decide) (by unfold TieFree delayVectors; decide) (.num 2) (by norm_num [Base.Std])

/-- **C44** (negative) Statistical tests of the ordinal conditional transfer entropy never randomise
anything: all test values equal the observed one, the p-value is 0 and the effective value is 0. -/
theorem C44_ordinal_cte_test_is_vacuous {G : Type} (q : Argsort α) (x y z : List α) (hxy : x.length = y.length)
    (hzy : z.length = y.length) (d s l k c : Nat)
    (hd : 1 ≤ d) (hd' : d ≤ 20) (hs : 1 ≤ s) (hl : 0 < l) (hk : 0 < k) (hc : 0 < c)
    (hn : (d - 1) * s + max (max k l) c * s < x.length) (hov : x.length < 2 ^ 32) (stable : Bool)
    (b : Base) (hb : b.Std) (extract : TEFlags → Except Exc (List ℝ)) (cfg : Settings) (g : G)
    (n : Int) (m : String) (hmm : m = "permutation_test" ∨ m = "bootstrap") :
    ∃ v, ordCTE q x y (some z) (ordTEParams d l k s stable c) (some (.int 0)) none b = .ok v ∧
    (2 ≤ n → ∃ r, (statisticalTestTE (ordCTECalc q x y z d s (ordTEParams d l k s stable c) b) extract
        cfg (some (.int n)) (some m) (freshTE g)).1 = .ok r ∧
      r.testValues = List.replicate n.toNat v ∧ r.observed = v ∧ r.pValue = 0 ∧ r.tScore = none) ∧
    (effectiveValTE (ordCTECalc q x y z d s (ordTEParams d l k s stable c) b) extract cfg (some m)
      (freshTE g)).1 = .ok 0 := by
  set N := x.length - (d - 1) * s with hN
  have e := ordCTE_eq_discrete q x y z hxy hzy l k c hd hd' hs (by omega) stable b
  simp only at e
  obtain ⟨v, hv, -⟩ := C24_cte_is_textbook ((List.range N).map (ordCode q stable x d s))
    ((List.range N).map (ordCode q stable y d s)) ((List.range N).map (ordCode q stable z d s))
    l k c s hs hl hk hc (by rw [List.length_map, List.length_range]; omega) (by simp) (by simp) (by simp; omega) b hb
  rw [hN, ← e] at hv
  refine ⟨v, hv, te_ignored_resampling _ extract cfg _ (fun f' g' => ?_) g n m hmm⟩
  have h3 : (ordCTECalc q x y z d s (ordTEParams d l k s stable c) b f' g' : _ × G).1 =
      (ordCTE q x y (some z) (ordTEParams d l k s stable c) (some (.int 0)) none b).map .scalar := by
    unfold ordCTE
    simp only [cteInit_zero hxy hzy, bind, Except.bind, ordTEParams]
    have hcc := ordPairChecks_ok (lo := 0) (n := x.length) (d := d) (s := s) (by omega) (by omega) hd
    simp only [teParams, hcc, ordCTECalc, bind, Except.bind]
    cases symbolizeInt q x d s stable with
    | error e => rfl
    | ok x' =>
      cases symbolizeInt q y d s stable with
      | error e => rfl
      | ok y' =>
        cases symbolizeInt q z d s stable with
        | error e => rfl
        | ok z' =>
          simp only
          cases cteObservations x' y' z' (.int l) (.int k) (.int c) (.int s) with
          | error e => rfl
          | ok sl =>
            simp only
            cases combinedTE (logBase b) sl none <;> rfl
  rw [h3, hv]
  rfl

/-- the hypotheses are met: dimension 2, step 1, histories 1, tie-free windows -/
example : ((2 - 1) * 1 + max (max 1 1) 1 * 1 < [3, 1, 2, 5, 4].length) ∧
    (∀ w ∈ delayVectors [3, 1, 2, 5, (4 : Int)] 2 1, w.Nodup) := by decide

end Verif
