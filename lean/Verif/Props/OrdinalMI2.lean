import Verif.Props.OrdinalMI

/-! # C56 continued: laws of the ordinal (conditional) mutual information, C44 for ordinal objects -/

namespace Verif

open Spec

variable {α : Type} [LinearOrder α] [Inhabited α]

/-- **C56** For every pair of aligned series, with or without ties: the ordinal mutual information is
defined, non-negative, at most `log d!` and at most the logarithm of the number of windows. -/
theorem C56_bounds (q : Argsort α) (x y : List α) (hxy : x.length = y.length) (d s : Nat)
    (hd : 1 ≤ d) (hs : 1 ≤ s) (hn : (d - 1) * s < x.length) (hov : x.length < 2 ^ 32) (stable : Bool)
    (b : Base) (hb : b.Std) :
    ∃ I, ordMI q [x, y] { dim := .int d, step := .int s, stable := stable } (some 0) b = .ok I ∧
      0 ≤ I ∧ I ≤ Real.log d.factorial / b.ln ∧ I ≤ Real.log ((x.length - (d - 1) * s : ℕ) : ℝ) / b.ln := by
  have hl : ((delayVectors x d s).map (sortFun q stable)).length =
      ((delayVectors y d s).map (sortFun q stable)).length := by
    simp [delayVectors, hxy]
  have hle := mi_le_left _ _ hl
  have hne : (delayVectors x d s).map (sortFun q stable) ≠ [] := by
    intro h
    have := congrArg List.length h
    simp [delayVectors] at this
    omega
  have hle2 := entropy_le_log_card _ hne
  have hc1 : ((delayVectors x d s).map (sortFun q stable)).toFinset.card ≤ x.length - (d - 1) * s := by
    refine (List.toFinset_card_le _).trans ?_
    simp [delayVectors]
  have hc2 : ((delayVectors x d s).map (sortFun q stable)).toFinset.card ≤ d.factorial := by
    have hsub : ((delayVectors x d s).map (sortFun q stable)).toFinset ⊆
        (List.range d).permutations.toFinset := by
      intro p hp
      rw [List.mem_toFinset] at hp ⊢
      obtain ⟨w, hw, rfl⟩ := List.mem_map.1 hp
      rw [List.mem_permutations]
      exact sortFun_perm_of_mem q stable hw
    refine (Finset.card_le_card hsub).trans ((List.toFinset_card_le _).trans ?_)
    rw [List.length_permutations, List.length_range]
  have hpos : 0 < ((delayVectors x d s).map (sortFun q stable)).toFinset.card := by
    rw [Finset.card_pos, List.toFinset_nonempty_iff]; exact hne
  have hpos' : (0:ℝ) < ((delayVectors x d s).map (sortFun q stable)).toFinset.card := by exact_mod_cast hpos
  refine ⟨_, ordMI_value q x y hxy hd hs hn hov stable hb, div_nonneg (mi_nonneg _ _ hl) hb.ln_pos.le, ?_, ?_⟩
  · refine div_le_div_of_nonneg_right (hle.trans (hle2.trans ?_)) hb.ln_pos.le
    exact Real.log_le_log hpos' (by exact_mod_cast hc2)
  · refine div_le_div_of_nonneg_right (hle.trans (hle2.trans ?_)) hb.ln_pos.le
    exact Real.log_le_log hpos' (by exact_mod_cast hc1)

example := C56_bounds stableSort [3, 1, 1, 5, 4, 0] [2, 7, 1, 5, 0, 3] rfl 3 1 (by decide) (by decide) (by decide) (by decide) false (.num 2) (by norm_num [Base.Std])

/-- **C56** The ordinal mutual information is symmetric, for all pairs of series. -/
theorem C56_symmetric (q : Argsort α) (x y : List α) (hxy : x.length = y.length) (d s : Nat)
    (hd : 1 ≤ d) (hs : 1 ≤ s) (hn : (d - 1) * s < x.length) (hov : x.length < 2 ^ 32) (stable : Bool)
    (b : Base) (hb : b.Std) :
    ordMI q [x, y] { dim := .int d, step := .int s, stable := stable } (some 0) b =
    ordMI q [y, x] { dim := .int d, step := .int s, stable := stable } (some 0) b := by
  rw [ordMI_value q x y hxy hd hs hn hov stable hb,
    ordMI_value q y x hxy.symm hd hs (hxy ▸ hn) (hxy ▸ hov) stable hb,
    mi_comm _ _ (by simp [delayVectors, hxy])]

example := C56_symmetric stableSort [3, 1, 1, 5, 4, 0] [2, 7, 1, 5, 0, 3] rfl 3 1 (by decide) (by decide) (by decide) (by decide) false (.num 2) (by norm_num [Base.Std])

/-- **C56** Dimension 1 always gives 0, globally and locally. -/
theorem C56_dim_one_zero (q : Argsort α) (x y : List α) (hxy : x.length = y.length) (s : Nat)
    (hs : 1 ≤ s) (hn : x ≠ []) (stable : Bool) (b : Base) :
    ordMI q [x, y] { dim := .int 1, step := .int s, stable := stable } (some 0) b = .ok 0 := by
  obtain ⟨cx, cy, hi, -⟩ := ordMIInit_pair q x y hxy (le_refl 1) hs
    (by simpa using List.length_pos_iff.2 hn) stable
  unfold ordMI
  rw [Nat.cast_one] at hi
  simp only [hi, bind, Except.bind, ordMICalculate, if_true]

example := C56_dim_one_zero stableSort [3, 1, 2, 5, 4, 0] [2, 7, 1, 5, 0, 3] rfl 2 (by decide) (by decide) false .e

/-- **C56** The ordinal mutual information of a tie-free series with itself is its ordinal entropy. -/
theorem C56_self_is_entropy (q : Argsort α) (x : List α) (d s : Nat)
    (hd : 1 ≤ d) (hs : 1 ≤ s) (hn : (d - 1) * s < x.length) (hov : x.length < 2 ^ 32) (stable : Bool)
    (ht : TieFree x d s) (b : Base) (hb : b.Std) :
    ordMI q [x, x] { dim := .int d, step := .int s, stable := stable } (some 0) b =
    ordEntropy q [.arr1 x] { dim := .int d, step := .int s, stable := stable } b := by
  rw [C56_ordinal_mi_is_textbook q x x rfl d s hd hs hn hov stable ht ht b hb,
    C28_ordinal_entropy_is_permutation_entropy q x d s hd hs hn ht stable b hb.valid]
  congr 2
  unfold permEntropy ordPatterns
  rw [mi_map]
  have : entropy ((delayVectors x d s).map (fun w => (rankPattern w, rankPattern w))) =
      entropy ((delayVectors x d s).map rankPattern) :=
    entropy_map_congr _ _ _ (fun u _ v _ => by simp)
  rw [this]; ring

example := C56_self_is_entropy stableSort [3, 1, 2, 5, 4, 0] 3 1 (by decide) (by decide) (by decide) (by decide) false (by unfold TieFree delayVectors; decide) (.num 2) (by norm_num [Base.Std])

/-- **C56** For tie-free series the ordinal mutual information is the sum of the ordinal entropies minus
the joint ordinal entropy, each as the entropy function returns it. -/
theorem C56_mi_eq_entropy_combination (q : Argsort α) (x y : List α) (hxy : x.length = y.length) (d s : Nat)
    (hd : 1 ≤ d) (hd' : d ≤ 20) (hs : 1 ≤ s) (hn : (d - 1) * s < x.length) (hov : x.length < 2 ^ 32)
    (stable : Bool) (htx : TieFree x d s) (hty : TieFree y d s) (b : Base) (hb : b.Std) :
    ∃ I HX HY HXY,
      ordMI q [x, y] { dim := .int d, step := .int s, stable := stable } (some 0) b = .ok I ∧
      ordEntropy q [.arr1 x] { dim := .int d, step := .int s, stable := stable } b = .ok HX ∧
      ordEntropy q [.arr1 y] { dim := .int d, step := .int s, stable := stable } b = .ok HY ∧
      ordEntropy q [.tup [x, y]] { dim := .int d, step := .int s, stable := stable } b = .ok HXY ∧
      I = HX + HY - HXY := by
  refine ⟨_, _, _, _, C56_ordinal_mi_is_textbook q x y hxy d s hd hs hn hov stable htx hty b hb,
    C28_ordinal_entropy_is_permutation_entropy q x d s hd hs hn htx stable b hb.valid,
    C28_ordinal_entropy_is_permutation_entropy q y d s hd hs (hxy ▸ hn) hty stable b hb.valid,
    C28_joint_entropy_of_patterns q [x, y] x.length d s hd hd' hs (by simp) (by simp [hxy]) hn
      (by simp [htx, hty]) stable b hb.valid, ?_⟩
  rw [ordPatterns_win, ordPatterns_win, ← hxy, mi_map]
  have h1 : permEntropy x d s = entropy ((List.range (x.length - (d - 1) * s)).map
      (fun i => rankPattern (win x d s i))) := by
    rw [← ordPatterns_win]; rfl
  have h2 : permEntropy y d s = entropy ((List.range (x.length - (d - 1) * s)).map
      (fun i => rankPattern (win y d s i))) := by
    rw [hxy, ← ordPatterns_win]; rfl
  have h3 : entropy ((List.range (x.length - (d - 1) * s)).map (fun t =>
      [x, y].map (fun c => rankPattern ((delayVectors c d s).getD t [])))) =
      entropy ((List.range (x.length - (d - 1) * s)).map
        (fun i => (rankPattern (win x d s i), rankPattern (win y d s i)))) := by
    refine entropy_map_congr _ _ _ fun u hu v hv => ?_
    have hu := List.mem_range.1 hu
    have hv := List.mem_range.1 hv
    have e : ∀ (c : List α), c.length = x.length → ∀ t, t < x.length - (d - 1) * s →
        (delayVectors c d s).getD t [] = win c d s t := by
      intro c hc t ht
      rw [delayVectors_win, hc, List.getD_eq_getElem?_getD, List.getElem?_map,
        List.getElem?_range ht]
      rfl
    simp only [List.map_cons, List.map_nil, List.cons.injEq, and_true, Prod.mk.injEq]
    rw [e x rfl u hu, e x rfl v hv, e y hxy.symm u hu, e y hxy.symm v hv]
  rw [h1, h2, h3]
  ring

example := C56_mi_eq_entropy_combination stableSort [3, 1, 2, 5, 4, 0] [2, 7, 1, 5, 0, 3] rfl 3 1 (by decide) (by decide) (by decide) (by decide) (by decide) false (by unfold TieFree delayVectors; decide) (by unfold TieFree delayVectors; decide) (.num 2) (by norm_num [Base.Std])

/-- **C56** Strictly increasing transformations of the two series leave the ordinal mutual information
unchanged (any series with a stable sort, tie-free ones with any sort). -/
theorem C56_invariant_under_increasing_maps {β : Type} [LinearOrder β] [Inhabited β] (q : Argsort α)
    (q' : Argsort β) (x y : List α) (f g : α → β) (hf : StrictMono f) (hg : StrictMono g) (d s : Nat)
    (stable : Bool) (htx : stable = true ∨ TieFree x d s) (hty : stable = true ∨ TieFree y d s)
    (hxy : x.length = y.length) (b : Base) :
    ordMI q' [x.map f, y.map g] { dim := .int d, step := .int s, stable := stable } (some 0) b =
    ordMI q [x, y] { dim := .int d, step := .int s, stable := stable } (some 0) b := by
  have hx := (C27_invariant_under_increasing_maps q q' x f hf d s stable htx).1
  have hy := (C27_invariant_under_increasing_maps q q' y g hg d s stable hty).1
  unfold ordMI ordMIInit
  simp only [miInit_pair hxy, miInit_pair (show (x.map f).length = (y.map g).length by simpa using hxy),
    bind, Except.bind, List.headD_cons, List.length_map]
  by_cases hc : ordPairChecks 1 x.length (.int d) (.int s) = .ok ((d : Int), (s : Int))
  · simp only [hc]
    have e1 : ordSymbols q' d s stable (x.map f) = ordSymbols q d s stable x := by
      unfold ordSymbols; rw [hx]
    have e2 : ordSymbols q' d s stable (y.map g) = ordSymbols q d s stable y := by
      unfold ordSymbols; rw [hy]
    rw [List.mapM_cons, List.mapM_cons, List.mapM_nil, List.mapM_cons, List.mapM_cons, List.mapM_nil, e1, e2]
  · have : ∃ e, ordPairChecks 1 x.length (.int d) (.int s) = .error e := by
      unfold ordPairChecks at hc ⊢
      split_ifs at hc ⊢
      · exact ⟨_, rfl⟩
      · exact ⟨_, rfl⟩
      · exact ⟨_, rfl⟩
      · exact absurd rfl hc
    obtain ⟨e, he⟩ := this
    simp only [he]

example := C56_invariant_under_increasing_maps stableSort stableSort [3, 1, 1, 5, 4, 0] [2, 7, 1, 5, 0, 3] (fun x => 2 * x + 1) (fun x => x + 7)
  (fun a b h => by simpa using h) (fun a b h => by simpa using h) 3 1 true (.inl rfl) (.inl rfl) rfl .e

/-- **C56** The local values average to the global value and there is one per window. -/
theorem C56_local_mean (q : Argsort α) (x y : List α) (hxy : x.length = y.length) (d s : Nat)
    (hd : 2 ≤ d) (hs : 1 ≤ s) (hn : (d - 1) * s < x.length) (hov : x.length < 2 ^ 32) (stable : Bool)
    (b : Base) (hb : b.Std) :
    ∃ I ls, ordMI q [x, y] { dim := .int d, step := .int s, stable := stable } (some 0) b = .ok I ∧
      ordMILocal q [x, y] { dim := .int d, step := .int s, stable := stable } (some 0) b = .ok ls ∧
      ls.length = x.length - (d - 1) * s ∧ Spec.mean ls = I := by
  obtain ⟨cx, cy, hi, -⟩ := ordMIInit_pair q x y hxy (by omega) hs hn stable
  have hR : x.length - (d - 1) * s < 2 ^ 32 := by omega
  have hov2 : (x.length - (d - 1) * s) ^ 2 < 2 ^ 64 := by
    have : (x.length - (d - 1) * s) ^ 2 < (2 ^ 32) ^ 2 := Nat.pow_lt_pow_left hR (by norm_num)
    simpa [← pow_mul] using this
  obtain ⟨g, ls, h1, h2, h3, h4⟩ := C15_local_mi_mean
    [(List.range (x.length - (d - 1) * s)).map cx, (List.range (x.length - (d - 1) * s)).map cy]
    (x.length - (d - 1) * s) (by omega) (by simp) (by simp) (by simpa using hov2) b hb false
  have hinit : miInit [(List.range (x.length - (d - 1) * s)).map cx,
      (List.range (x.length - (d - 1) * s)).map cy] (some 0) = .ok [(List.range (x.length - (d - 1) * s)).map cx,
      (List.range (x.length - (d - 1) * s)).map cy] := miInit_pair (by simp)
  have hne : ¬ ((d : Int) = 1) := by omega
  simp only [discreteMI, discreteMILocal, hinit, bind, Except.bind, Bool.false_eq_true, if_false] at h1 h2
  refine ⟨g, ls, ?_, ?_, h3, h4⟩
  · unfold ordMI
    simp only [hi, bind, Except.bind, ordMICalculate, if_neg hne]
    exact h1
  · unfold ordMILocal
    simp only [hi, bind, Except.bind, ordMICalculate, if_neg hne, h1]
    exact h2

example := C56_local_mean stableSort [3, 1, 1, 5, 4, 0] [2, 7, 1, 5, 0, 3] rfl 3 1 (by decide) (by decide) (by decide) (by decide) false (.num 2) (by norm_num [Base.Std])

/-- **C56** For two aligned series: the estimate is defined exactly when dimension and step are integers
`≥ 1` and one window fits; everything else is a ValueError. -/
theorem C56_guard_exact (q : Argsort α) (x y : List α) (hxy : x.length = y.length) (p : OrdParams)
    (hov : x.length < 2 ^ 32) (b : Base) (hb : b.Std) :
    let valid := ∃ d s : Nat, p.dim = .int d ∧ p.step = .int s ∧ 1 ≤ d ∧ 1 ≤ s ∧ (d - 1) * s < x.length
    ((∃ I, ordMI q [x, y] p (some 0) b = .ok I) ↔ valid) ∧
    (ordMI q [x, y] p (some 0) b = .error .valueError ↔ ¬ valid) := by
  intro valid
  have key : (valid ∧ ∃ I, ordMI q [x, y] p (some 0) b = .ok I) ∨
      (¬ valid ∧ ordMI q [x, y] p (some 0) b = .error .valueError) := by
    by_cases hv : valid
    · obtain ⟨d, s, h1, h2, h3, h4, h5⟩ := hv
      refine Or.inl ⟨⟨d, s, h1, h2, h3, h4, h5⟩, ?_⟩
      have := ordMI_value q x y hxy h3 h4 h5 hov p.stable hb
      have hp : p = { dim := .int d, step := .int s, stable := p.stable } := by
        cases p; simp only at h1 h2; subst h1; subst h2; rfl
      rw [hp]
      exact ⟨_, this⟩
    · refine Or.inr ⟨hv, ?_⟩
      unfold ordMI ordMIInit
      simp only [miInit_pair hxy, bind, Except.bind, List.headD_cons]
      unfold ordPairChecks
      by_cases h1 : p.dim.intGe 0 = false
      · rw [if_pos h1]
      rw [if_neg h1]
      by_cases h2 : p.step.intGe 1 = false
      · rw [if_pos h2]
      rw [if_neg h2]
      by_cases h3 : (x.length : Int) < (p.dim.val - 1) * p.step.val + 1
      · rw [if_pos h3]
      rw [if_neg h3]
      simp only
      cases hdim : p.dim with
      | num x => rw [hdim] at h1; simp [PyArg.intGe] at h1
      | other => rw [hdim] at h1; simp [PyArg.intGe] at h1
      | int dd =>
        cases hstep : p.step with
        | num x => rw [hstep] at h2; simp [PyArg.intGe] at h2
        | other => rw [hstep] at h2; simp [PyArg.intGe] at h2
        | int ss =>
          rw [hdim, hstep] at h3
          rw [hdim] at h1
          rw [hstep] at h2
          simp only [PyArg.intGe, decide_eq_false_iff_not, not_not] at h1 h2
          simp only [PyArg.val] at h3 ⊢
          have hdd : dd = 0 := by
            by_contra hne
            apply hv
            obtain ⟨d, rfl⟩ := Int.eq_ofNat_of_zero_le h1
            obtain ⟨s, rfl⟩ := Int.eq_ofNat_of_zero_le (by omega : 0 ≤ ss)
            refine ⟨d, s, hdim, hstep, by omega, by omega, ?_⟩
            have : ((d : Int) - 1) = ((d - 1 : Nat) : Int) := by omega
            rw [this] at h3
            have h4 : ((d - 1 : Nat) : Int) * (s : Int) < x.length := by omega
            exact_mod_cast h4
          subst hdd
          rw [List.mapM_cons]
          simp [ordSymbols, symbolize, bind, Except.bind]
  rcases key with ⟨h1, I, h2⟩ | ⟨h1, h2⟩
  · exact ⟨⟨fun _ => h1, fun _ => ⟨I, h2⟩⟩, ⟨fun h => (by rw [h2] at h; cases h), fun h => absurd h1 h⟩⟩
  · exact ⟨⟨fun ⟨I, h⟩ => (by rw [h2] at h; cases h), fun h => absurd h h1⟩, ⟨fun _ => h1, fun _ => h2⟩⟩

/-- the hypotheses are met: a tie-free pair of series with two different patterns -/
example : TieFree ([1, 3, 2, 4] : List Int) 2 1 ∧ TieFree ([4, 1, 2, 0] : List Int) 2 1 ∧
    (2 - 1) * 1 < ([1, 3, 2, 4] : List Int).length := by
  refine ⟨?_, ?_, by decide⟩ <;> · unfold TieFree delayVectors; decide

/-! ### Conditional mutual information -/

theorem ordCMIInit_ok (q : Argsort α) (x y z : List α) (hxy : x.length = y.length) (hxz : y.length = z.length)
    {d s : Nat} (hd : 1 ≤ d) (hs : 1 ≤ s) (hn : (d - 1) * s < x.length) (stable : Bool) :
    ∃ cx cy cz : Nat → Int,
      ordCMIInit q [x, y] (some z) { dim := .int d, step := .int s, stable := stable } (some 0) =
        .ok { dim := d, symbols := [(List.range (x.length - (d - 1) * s)).map cx,
                                    (List.range (x.length - (d - 1) * s)).map cy],
              symbolsCond := (List.range (x.length - (d - 1) * s)).map cz } ∧
      (∀ i j, i < x.length - (d - 1) * s → j < x.length - (d - 1) * s →
        (cx i = cx j ↔ sortFun q stable (win x d s i) = sortFun q stable (win x d s j))) ∧
      (∀ i j, i < x.length - (d - 1) * s → j < x.length - (d - 1) * s →
        (cy i = cy j ↔ sortFun q stable (win y d s i) = sortFun q stable (win y d s j))) ∧
      (∀ i j, i < x.length - (d - 1) * s → j < x.length - (d - 1) * s →
        (cz i = cz j ↔ sortFun q stable (win z d s i) = sortFun q stable (win z d s j))) := by
  have hxz' : x.length = z.length := hxy.trans hxz
  obtain ⟨cx, hcx, hcx'⟩ := ordSymbols_ok q x hd hs hn stable
  obtain ⟨cy, hcy, hcy'⟩ := ordSymbols_ok q y hd hs (hxy ▸ hn) stable
  obtain ⟨cz, hcz, hcz'⟩ := ordSymbols_ok q z hd hs (hxz' ▸ hn) stable
  rw [← hxy] at hcy hcy'
  rw [← hxz'] at hcz hcz'
  refine ⟨cx, cy, cz, ?_, hcx', hcy', hcz'⟩
  unfold ordCMIInit
  have hi : cmiInit [x, y] (some z) (some 0) = .ok ([x, y], z) := by simp [cmiInit, hxy, hxz]
  simp only [hi, bind, Except.bind, List.headD_cons,
    ordPairChecks_ok (lo := 1) (n := x.length) (by exact_mod_cast hs) hn hd]
  rw [List.mapM_cons, List.mapM_cons, List.mapM_nil]
  simp only [hcx, hcy, hcz, bind, Except.bind, pure, Except.pure]

/-- **C56** For tie-free series the ordinal conditional mutual information is the textbook conditional
mutual information of the three sequences of ordinal patterns; it is non-negative. -/
theorem C56_ordinal_cmi_is_textbook (q : Argsort α) (x y z : List α) (hxy : x.length = y.length)
    (hyz : y.length = z.length) (d s : Nat) (hd : 1 ≤ d) (hs : 1 ≤ s) (hn : (d - 1) * s < x.length)
    (hov : x.length < 2 ^ 32) (stable : Bool)
    (htx : TieFree x d s) (hty : TieFree y d s) (htz : TieFree z d s) (b : Base) (hb : b.Std) :
    ∃ I, ordCMI q [x, y] (some z) { dim := .int d, step := .int s, stable := stable } (some 0) b = .ok I ∧
      I = Spec.cmi (ordPatterns x d s) (ordPatterns y d s) (ordPatterns z d s) / b.ln ∧ 0 ≤ I := by
  have hxz : x.length = z.length := hxy.trans hyz
  obtain ⟨cx, cy, cz, hi, hcx, hcy, hcz⟩ := ordCMIInit_ok q x y z hxy hyz hd hs hn stable
  set R := x.length - (d - 1) * s with hR
  have hRpos : 0 < R := by omega
  have hnn : 0 ≤ Spec.cmi (ordPatterns x d s) (ordPatterns y d s) (ordPatterns z d s) / b.ln :=
    div_nonneg (cmi_nonneg _ _ _ (by simp [ordPatterns, delayVectors, hxy])
      (by simp [ordPatterns, delayVectors, hyz])) hb.ln_pos.le
  refine ⟨_, ?_, rfl, hnn⟩
  have hcmi : Spec.cmi (ordPatterns x d s) (ordPatterns y d s) (ordPatterns z d s)
      = Spec.cmi ((List.range R).map cx) ((List.range R).map cy) ((List.range R).map cz) := by
    rw [ordPatterns_win, ordPatterns_win, ordPatterns_win, ← hxy, ← hxz, ← hR]
    refine cmi_relabel _ _ _ _ _ _ _ (fun u hu v hv => ?_) (fun u hu v hv => ?_) (fun u hu v hv => ?_)
    · have hu := List.mem_range.1 hu
      have hv := List.mem_range.1 hv
      rw [hcx u v hu hv]; exact (sortFun_iff_rank q stable htx hu hv).symm
    · have hu := List.mem_range.1 hu
      have hv := List.mem_range.1 hv
      rw [hcy u v hu hv]; exact (sortFun_iff_rank q stable hty (hxy ▸ hu) (hxy ▸ hv)).symm
    · have hu := List.mem_range.1 hu
      have hv := List.mem_range.1 hv
      rw [hcz u v hu hv]; exact (sortFun_iff_rank q stable htz (hxz ▸ hu) (hxz ▸ hv)).symm
  have hov2 : R ^ 2 < 2 ^ 64 := by
    have hle : R < 2 ^ 32 := by omega
    have : R ^ 2 < (2 ^ 32) ^ 2 := Nat.pow_lt_pow_left hle (by norm_num)
    simpa [← pow_mul] using this
  have hval := cmiNdInt_pair ((List.range R).map cx) ((List.range R).map cy) ((List.range R).map cz)
    (by simp) (by simp) (by simp; omega) (by simpa using hov2) hb.valid
  unfold ordCMI
  simp only [hi, bind, Except.bind, ordCMICalculate]
  by_cases h1 : d = 1
  · subst h1
    rw [if_pos (by norm_num), hcmi]
    have hone : ∀ w : List α, w.length = 1 → sortFun q stable w = [0] := by
      intro w hw
      have := (sortFun_isArgsort q stable w).perm
      rw [hw] at this
      exact List.perm_singleton.1 this
    have hx0 : ∀ u ∈ List.range R, ∀ v ∈ List.range R, (cx u = cx v ↔ () = ()) := by
      intro u hu v hv
      rw [hcx u v (List.mem_range.1 hu) (List.mem_range.1 hv), hone _ (by simp [win]), hone _ (by simp [win])]
      simp
    have : Spec.cmi ((List.range R).map cx) ((List.range R).map cy) ((List.range R).map cz) = 0 := by
      rw [cmi_map, entropy_map_congr _ (fun w => (cx w, cz w)) cz (fun u hu v hv => by
          simp only [Prod.mk.injEq, (hx0 u hu v hv).2 rfl, true_and]),
        entropy_map_congr _ (fun w => (cx w, cy w, cz w)) (fun w => (cy w, cz w)) (fun u hu v hv => by
          simp only [Prod.mk.injEq, (hx0 u hu v hv).2 rfl, true_and])]
      ring
    rw [this, zero_div]
  · rw [if_neg (by exact_mod_cast h1), hcmi]
    exact hval

example := C56_ordinal_cmi_is_textbook stableSort [3, 1, 2, 5, 4, 0] [2, 7, 1, 5, 0, 3] [1, 0, 4, 2, 6, 5] rfl rfl 3 1 (by decide) (by decide) (by decide) (by decide) false (by unfold TieFree delayVectors; decide) (by unfold TieFree delayVectors; decide) (by unfold TieFree delayVectors; decide) (.num 2) (by norm_num [Base.Std])

/-- **C56** The local conditional values average to the global value and there is one per window (ties allowed). -/
theorem C56_cmi_local_mean (q : Argsort α) (x y z : List α) (hxy : x.length = y.length)
    (hyz : y.length = z.length) (d s : Nat) (hd : 2 ≤ d) (hs : 1 ≤ s) (hn : (d - 1) * s < x.length)
    (hov : x.length < 2 ^ 32) (stable : Bool) (b : Base) (hb : b.Std) :
    ∃ I ls, ordCMI q [x, y] (some z) { dim := .int d, step := .int s, stable := stable } (some 0) b = .ok I ∧
      ordCMILocal q [x, y] (some z) { dim := .int d, step := .int s, stable := stable } (some 0) b = .ok ls ∧
      ls.length = x.length - (d - 1) * s ∧ Spec.mean ls = I := by
  obtain ⟨cx, cy, cz, hi, -⟩ := ordCMIInit_ok q x y z hxy hyz (by omega) hs hn stable
  set R := x.length - (d - 1) * s with hR
  have hov2 : R ^ 2 < 2 ^ 64 := by
    have hle : R < 2 ^ 32 := by omega
    have : R ^ 2 < (2 ^ 32) ^ 2 := Nat.pow_lt_pow_left hle (by norm_num)
    simpa [← pow_mul] using this
  obtain ⟨g, ls, h1, h2, h3, h4⟩ := C16_local_cmi_mean [(List.range R).map cx, (List.range R).map cy] ((List.range R).map cz)
    (by simp; omega) (by simp) (by simp) (by simpa using hov2) b hb.valid false
  rw [discreteCMI_eq (z := (List.range R).map cz) (by simp) (by simp) rfl (.inr rfl)] at h1
  rw [discreteCMILocal_eq (z := (List.range R).map cz) (by simp) (by simp) rfl (.inr rfl)] at h2
  have hne : ¬ ((d : Int) = 1) := by omega
  simp only [Bool.false_eq_true, if_false] at h1 h2
  refine ⟨g, ls, ?_, ?_, by simpa using h3, h4⟩
  · unfold ordCMI
    simp only [hi, bind, Except.bind, ordCMICalculate, if_neg hne]
    exact h1
  · unfold ordCMILocal
    simp only [hi, bind, Except.bind, ordCMICalculate, if_neg hne, h1]
    exact h2

example := C56_cmi_local_mean stableSort [3, 1, 1, 5, 4, 0] [2, 7, 1, 5, 0, 3] [1, 0, 4, 4, 6, 5] rfl rfl 3 1 (by decide) (by decide) (by decide) (by decide) false (.num 2) (by norm_num [Base.Std])

/-- **C56** Without condition the conditional estimator raises ValueError, and so does any offset. -/
theorem C56_cmi_rejects (q : Argsort α) (data : List (List α)) (z : List α) (p : OrdParams) (o : Option Int)
    (b : Base) :
    ordCMI q data none p o b = .error .valueError ∧
    (¬ (o = some 0 ∨ o = none) → ordCMI q data (some z) p o b = .error .valueError) := by
  constructor
  · rfl
  · intro h
    unfold ordCMI ordCMIInit cmiInit
    simp only [h, not_false_eq_true, if_true, bind, Except.bind]

example := (C56_cmi_rejects stableSort [[3, 1, 2, 5, 4, 0], [2, 7, 1, 5, 0, 3]] [1, 0, 4, 2, 6, 5] { dim := .int 3 } (some 2) .e).2 (by simp)

/-! ### Statistical tests of ordinal objects -/

/-- **C44** (negative) Statistical tests of the ordinal mutual information never randomise anything: the
symbols are fixed by the constructor, so for every pair of series, every method, number of tests and
generator all test values equal the observed value, the p-value is 0, and the effective value is 0. -/
theorem C44_ordinal_mi_test_is_vacuous {G : Type} (q : Argsort α) (x y : List α) (hxy : x.length = y.length)
    (d s : Nat) (hd : 1 ≤ d) (hs : 1 ≤ s) (hn : (d - 1) * s < x.length) (hov : x.length < 2 ^ 32)
    (stable : Bool) (b : Base) (hb : b.Std) (extract : List (List α) → Except Exc (List ℝ))
    (R : Resampler (List α) G) (cfg : Settings) (g : G) (n : Int) (m : String)
    (hm : m = "permutation_test" ∨ m = "bootstrap") :
    ∃ st v, ordMIInit q [x, y] { dim := .int d, step := .int s, stable := stable } (some 0) = .ok st ∧
      ordMI q [x, y] { dim := .int d, step := .int s, stable := stable } (some 0) b = .ok v ∧
      (2 ≤ n → ∃ r, (statisticalTestMI (ordMICalc st b) extract R cfg (some (.int n)) (some m)
          (freshMI [x, y] g)).1 = .ok r ∧
        r.testValues = List.replicate n.toNat v ∧ r.observed = v ∧ r.pValue = 0 ∧ r.tScore = none) ∧
      (effectiveValMI (ordMICalc st b) extract R cfg (some m) (freshMI [x, y] g)).1 = .ok 0 := by
  obtain ⟨cx, cy, hi, -⟩ := ordMIInit_pair q x y hxy hd hs hn stable
  have hv := ordMI_value q x y hxy hd hs hn hov stable hb
  refine ⟨_, _, hi, hv, mi_ignored_resampling _ extract R cfg _ (fun d' g' => ?_) x y g n m hm⟩
  unfold ordMI at hv
  simp only [hi, bind, Except.bind] at hv
  simp only [ordMICalc, hv, Except.map]

example (extract : List (List Int) → Except Exc (List ℝ)) (R : Resampler (List Int) Nat) (cfg : Settings) :=
  C44_ordinal_mi_test_is_vacuous stableSort [3, 1, 2, 5, 4, 0] [2, 7, 1, 5, 0, 3] rfl 3 1 (by decide) (by decide) (by decide) (by decide) false (.num 2) (by norm_num [Base.Std]) extract R cfg 0 10 "bootstrap" (.inr rfl)

/-- **C44** (negative) The same for the ordinal conditional mutual information. -/
theorem C44_ordinal_cmi_test_is_vacuous {G : Type} (q : Argsort α) (x y z : List α) (hxy : x.length = y.length)
    (hyz : y.length = z.length) (d s : Nat) (hd : 1 ≤ d) (hs : 1 ≤ s) (hn : (d - 1) * s < x.length)
    (hov : x.length < 2 ^ 32) (stable : Bool) (htx : TieFree x d s) (hty : TieFree y d s) (htz : TieFree z d s)
    (b : Base) (hb : b.Std) (extract : List (List α) → Except Exc (List ℝ))
    (R : Resampler (List α) G) (cfg : Settings) (g : G) (n : Int) (m : String)
    (hm : m = "permutation_test" ∨ m = "bootstrap") :
    ∃ st v, ordCMIInit q [x, y] (some z) { dim := .int d, step := .int s, stable := stable } (some 0) = .ok st ∧
      ordCMI q [x, y] (some z) { dim := .int d, step := .int s, stable := stable } (some 0) b = .ok v ∧
      (2 ≤ n → ∃ r, (statisticalTestMI (ordCMICalc st b) extract R cfg (some (.int n)) (some m)
          (freshMI [x, y] g)).1 = .ok r ∧
        r.testValues = List.replicate n.toNat v ∧ r.observed = v ∧ r.pValue = 0 ∧ r.tScore = none) ∧
      (effectiveValMI (ordCMICalc st b) extract R cfg (some m) (freshMI [x, y] g)).1 = .ok 0 := by
  obtain ⟨cx, cy, cz, hi, -⟩ := ordCMIInit_ok q x y z hxy hyz hd hs hn stable
  obtain ⟨v, hv, -⟩ := C56_ordinal_cmi_is_textbook q x y z hxy hyz d s hd hs hn hov stable htx hty htz b hb
  refine ⟨_, v, hi, hv, mi_ignored_resampling _ extract R cfg _ (fun d' g' => ?_) x y g n m hm⟩
  unfold ordCMI at hv
  simp only [hi, bind, Except.bind] at hv
  simp only [ordCMICalc, hv, Except.map]

example (extract : List (List Int) → Except Exc (List ℝ)) (R : Resampler (List Int) Nat) (cfg : Settings) :=
  C44_ordinal_cmi_test_is_vacuous stableSort [3, 1, 2, 5, 4, 0] [2, 7, 1, 5, 0, 3] [1, 0, 4, 2, 6, 5] rfl rfl 3 1 (by decide) (by decide) (by decide) (by decide) false (by unfold TieFree delayVectors; decide) (by unfold TieFree delayVectors; decide) (by unfold TieFree delayVectors; decide) (.num 2) (by norm_num [Base.Std]) extract R cfg 0 10 "bootstrap" (.inr rfl)

end Verif
