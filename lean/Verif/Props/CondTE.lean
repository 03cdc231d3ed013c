import Verif.Props.VecTE2
import Verif.Props.OrdinalTE2

/-!
# C75: the discrete conditional transfer entropy, for vector-valued series and for every form of the condition

A condition may be one series, a nested list or 2-D array of vectors, or a tuple of series.  `Model/VecTE.lean` transcribes what each
estimator does with it; here is what a caller sees.
-/

namespace Verif

open Spec

/-- parameters and data that pass the checks: the value in terms of the vectors of the embedding -/
theorem vec_cte_value (source dest cond : List (List Int)) (l k c s : Nat) (hs : 0 < s) (hl : 0 < l) (hk : 0 < k) (hc : 0 < c)
    (hm : max (max k l) c * s < source.length) (hlen : source.length = dest.length) (hlen2 : cond.length = dest.length)
    (hov : dest.length < 2 ^ 32) {m n o : Nat} (hx : VecShape m source) (hy : VecShape n dest) (hz : VecShape o cond)
    {b : Base} (hb : b.Valid) (mm : Bool) :
    let M := max (max k l) c
    let R := numRows dest.length M s
    let f : Nat → List (List Int) := fun i => [dest.getD ((M + i) * s) default]
    let g : Nat → List (List Int) := histRow source M s l
    let d : Nat → List (List Int) × List (List Int) := fun i => (histRow dest M s k i, histRow cond M s c i)
    discreteCTEVec source dest (some cond) (teParams l k s) (.int c) (some (.int 0)) none b mm =
      .ok ((hSpec mm ((List.range R).map (fun i => (f i, d i))) +
        hSpec mm ((List.range R).map (fun i => (g i, d i))) -
        hSpec mm ((List.range R).map (fun i => (f i, g i, d i))) -
        hSpec mm ((List.range R).map d)) / b.ln) := by
  intro M R f g d
  have hm' : M * s < dest.length := hlen ▸ hm
  have hRl : R < 2 ^ 32 := lt_of_le_of_lt (numRows_le dest.length M s hs) hov
  have ho : cteObservationsVec source dest cond (.int l) (.int k) (.int c) (.int s) =
      .ok { src := (List.range R).map (fun i => (g i).flatten)
            dest := (List.range R).map (fun i => (histRow dest M s k i).flatten)
            fut := (List.range R).map (fun i => (f i).flatten)
            cond := some ((List.range R).map (fun i => (histRow cond M s c i).flatten)) } := by
    unfold cteObservationsVec
    rw [cteObservations_ok source dest cond l k c s hs hl hk hc hm hlen hlen2 lawful_none, srcSel_none, histRows, futRows, histRows]
    simp only [bind, Except.bind, pure, Except.pure, flatSlices, List.map_map, Option.map_some]
    rfl
  simp only [discreteCTEVec, cteInit_zero hlen hlen2, bind, Except.bind, teParams, ho, combinedTE_cond]
  rw [cmiNdInt_codes _ (numRows_pos hs hm') hRl _ _ _ hb mm]
  have wid : ∀ {xs : List (List Int)} {w h : Nat}, xs.length = dest.length → VecShape w xs → h ≤ M → ∀ i < R,
      ∀ v ∈ histRow xs M s h i, v.length = w := fun hxl hxs hh i hi v hv =>
    hxs.2 _ (histRow_mem hs hh (by rw [hxl]; exact hm') (by rw [hxl]; exact hi) v hv)
  congr 2
  refine hSpec_combo_congr mm (List.range R) (fun u hu v hv => ?_) (fun u hu v hv => ?_) (fun u hu v hv => ?_)
  · have hu' := List.mem_range.1 hu
    have hv' := List.mem_range.1 hv
    refine vec_flatten_inj (m := n) (by simp [f]) ?_ ?_
    · intro w hw; rw [List.mem_singleton.1 hw]; exact hy.2 _ (futRow_mem hs hm' hu')
    · intro w hw; rw [List.mem_singleton.1 hw]; exact hy.2 _ (futRow_mem hs hm' hv')
  · exact vec_flatten_inj (m := m) (by simp [g, histRow])
      (wid hlen hx (le_trans (le_max_right _ _) (le_max_left _ _)) u (List.mem_range.1 hu))
      (wid hlen hx (le_trans (le_max_right _ _) (le_max_left _ _)) v (List.mem_range.1 hv))
  · have hkM : k ≤ M := le_trans (le_max_left _ _) (le_max_left _ _)
    have hcM : c ≤ M := le_max_right _ _
    have a1 := wid rfl hy hkM u (List.mem_range.1 hu)
    have a2 := wid rfl hy hkM v (List.mem_range.1 hv)
    rw [append_eq_iff (by rw [flatten_width (m := n) a1, flatten_width (m := n) a2]; simp [histRow]),
      vec_flatten_inj (m := n) (by simp [histRow]) a1 a2,
      vec_flatten_inj (m := o) (by simp [histRow]) (wid hlen2 hz hcM u (List.mem_range.1 hu)) (wid hlen2 hz hcM v (List.mem_range.1 hv)),
      Prod.mk.injEq]

theorem cte_shape {α : Type} {source dest : List α} {cond : Option (List α)} {pt o : Option PyArg} {d : List α × List α × List α}
    (h : cteInit source dest cond pt o = .ok d) :
    d = (source, dest, cond.getD []) ∧ source.length = dest.length ∧ (cond.getD []).length = dest.length := by
  unfold cteInit at h
  cases cond with
  | none => simp at h
  | some z =>
    simp only at h
    split_ifs at h with h1
    push Not at h1
    split at h
    · split_ifs at h
      cases h
      exact ⟨rfl, h1.1, h1.2.symm.trans h1.1⟩
    · cases h

/-- **C75** Plug-in and Miller–Madow conditional transfer entropy of vector-valued series is that of the scalar series obtained by giving
every distinct vector its own label – any injective labelling, separately for source, destination and condition – for all
parameters, exceptions included. -/
theorem C75_cte_recode (source dest cond : List (List Int)) (m n o : Nat) (hx : VecShape m source) (hy : VecShape n dest)
    (hz : VecShape o cond) (hov : dest.length < 2 ^ 32) (φ ψ χ : List Int → Int)
    (hφ : ∀ u ∈ source, ∀ v ∈ source, φ u = φ v → u = v) (hψ : ∀ u ∈ dest, ∀ v ∈ dest, ψ u = ψ v → u = v)
    (hχ : ∀ u ∈ cond, ∀ v ∈ cond, χ u = χ v → u = v) (p : TEParams) (ch : PyArg) (pt off : Option PyArg) (b : Base) (hb : b.Valid)
    (mm : Bool) :
    discreteCTEVec source dest (some cond) p ch pt off b mm =
      discreteCTE (source.map φ) (dest.map ψ) (some (cond.map χ)) p ch pt off b mm := by
  unfold discreteCTEVec discreteCTE
  have hi := cteInit_map φ ψ χ source dest (some cond) pt off
  rw [Option.map_some] at hi
  rw [hi]
  cases hq : cteInit source dest (some cond) pt off with
  | error e => rfl
  | ok q =>
    obtain ⟨rfl, hlen, hlen2⟩ := cte_shape hq
    simp only [Option.getD_some] at hlen2
    simp only [Except.map, bind, Except.bind, Option.getD_some]
    have hg := C21_cte_guard_exact source dest cond p.srcHist p.destHist ch p.step {} ⟨by simp, by simp⟩ hlen hlen2
    simp only at hg
    by_cases hv : ∃ l k c s : Nat, p.srcHist = .int l ∧ p.destHist = .int k ∧ ch = .int c ∧ p.step = .int s ∧ 0 < l ∧ 0 < k ∧
        0 < c ∧ 0 < s ∧ max (max l k) c * s < source.length ∧
        ¬ (({} : SrcRandom).permute.isSome ∧ ({} : SrcRandom).resample.isSome)
    · obtain ⟨l, k, c, s, e1, e2, e3, e4, hl, hk, hc, hs, hm, -⟩ := hv
      rw [max_comm l k] at hm
      have hp : p = teParams l k s := by cases p; simp only [teParams] at *; simp [e1, e2, e4]
      subst hp; subst e3
      have h1 := vec_cte_value source dest cond l k c s hs hl hk hc hm hlen hlen2 hov hx hy hz hb mm
      obtain ⟨f, g, d, e, R, hR, hf, hg', hd, he, ef, eg, ed, ee, ho, h2⟩ :=
        cte_value (source.map φ) (dest.map ψ) (cond.map χ) l k c s hs hl hk hc (by simpa using hm) (by simpa using hlen)
          (by simpa using hlen2) (by simpa using hov) hb mm
      unfold discreteCTEVec at h1
      unfold discreteCTE at h2
      simp only [cteInit_zero hlen hlen2, bind, Except.bind] at h1
      simp only [cteInit_zero (show (source.map φ).length = (dest.map ψ).length by simpa using hlen)
        (show (cond.map χ).length = (dest.map ψ).length by simpa using hlen2), bind, Except.bind] at h2
      rw [h1, h2]
      have hm' : max (max k l) c * s < dest.length := hlen ▸ hm
      have hRe : R = numRows dest.length (max (max k l) c) s := by
        have := congrArg List.length ef
        simpa [futRows] using this
      rw [hRe] at ef eg ed ee ⊢
      have hlM : l ≤ max (max k l) c := le_trans (le_max_right _ _) (le_max_left _ _)
      have hkM : k ≤ max (max k l) c := le_trans (le_max_left _ _) (le_max_left _ _)
      have hcM : c ≤ max (max k l) c := le_max_right _ _
      -- the scalar rows are the labelled vector rows
      have pick : ∀ {A : Type} {f₁ f₂ : Nat → A} {N : Nat}, (List.range N).map f₁ = (List.range N).map f₂ →
          ∀ u < N, f₁ u = f₂ u := fun h u hu => List.map_inj_left.1 h u (List.mem_range.2 hu)
      rw [futRows, List.length_map] at ef
      rw [histRows, List.length_map] at eg ed ee
      have F : ∀ u < numRows dest.length (max (max k l) c) s, f u = [ψ (dest.getD ((max (max k l) c + u) * s) default)] := by
        intro u hu
        rw [pick ef u hu, vecFutRow_map ψ hs hm' hu]
      have G : ∀ u < numRows dest.length (max (max k l) c) s, g u = (histRow source (max (max k l) c) s l u).map φ := by
        intro u hu
        rw [pick eg u hu]
        exact vecHistRow_map φ hs hlM hm (by rw [hlen]; exact hu)
      have D : ∀ u < numRows dest.length (max (max k l) c) s, d u = (histRow dest (max (max k l) c) s k u).map ψ := by
        intro u hu
        rw [pick ed u hu]
        exact vecHistRow_map ψ hs hkM hm' hu
      have E : ∀ u < numRows dest.length (max (max k l) c) s, e u = (histRow cond (max (max k l) c) s c u).map χ := by
        intro u hu
        rw [pick ee u hu]
        exact vecHistRow_map χ hs hcM (by rw [hlen2]; exact hm') (by rw [hlen2]; exact hu)
      congr 2
      refine hSpec_combo_congr mm (List.range _) (fun u hu v hv => ?_) (fun u hu v hv => ?_) (fun u hu v hv => ?_)
      · have hu' := List.mem_range.1 hu
        have hv' := List.mem_range.1 hv
        rw [F u hu', F v hv']
        simp only [List.cons.injEq, and_true]
        exact ⟨fun e => by rw [e], hψ _ (futRow_mem hs hm' hu') _ (futRow_mem hs hm' hv')⟩
      · have hu' := List.mem_range.1 hu
        have hv' := List.mem_range.1 hv
        rw [G u hu', G v hv']
        exact (vec_map_inj_on hφ (histRow_mem hs hlM hm (by rw [hlen]; exact hu')) (histRow_mem hs hlM hm (by rw [hlen]; exact hv'))).symm
      · have hu' := List.mem_range.1 hu
        have hv' := List.mem_range.1 hv
        rw [append_eq_iff (by rw [hd, hd]), D u hu', D v hv', E u hu', E v hv', Prod.mk.injEq,
          vec_map_inj_on hψ (histRow_mem hs hkM hm' hu') (histRow_mem hs hkM hm' hv'),
          vec_map_inj_on hχ (histRow_mem hs hcM (by rw [hlen2]; exact hm') (by rw [hlen2]; exact hu'))
            (histRow_mem hs hcM (by rw [hlen2]; exact hm') (by rw [hlen2]; exact hv'))]
    · have he := hg.2.2 hv
      have : cteObservations (source.map φ) (dest.map ψ) (cond.map χ) p.srcHist p.destHist ch p.step =
          .error .valueError := by rw [cteObservations_map φ ψ χ, he]; rfl
      rw [this]
      simp only [cteObservationsVec, he, bind, Except.bind]

example := C75_cte_recode [[0, 1], [1, 1], [0, 0], [0, 1], [1, 0]] [[2], [3], [2], [3], [3]] [[0], [1], [1], [0], [1]] 2 1 1
  ⟨by decide, by decide⟩ ⟨by decide, by decide⟩ ⟨by decide, by decide⟩ (by decide) (fun v => 2 * v.getD 0 0 + v.getD 1 0)
  (fun v => v.getD 0 0) (fun v => - v.getD 0 0) (by decide) (by decide) (by decide) (teParams 1 1 1) (.int 1) none none (.num 2)
  (by norm_num [Base.Valid]) true

/-- **C75** The vectors' values are irrelevant: one injective map each of the source, destination and condition vectors – reordering or
repeating components, changing their number – leaves the conditional transfer entropy unchanged, exceptions included. -/
theorem C75_cte_reencode (source dest cond : List (List Int)) (m n o m' n' o' : Nat) (hx : VecShape m source) (hy : VecShape n dest)
    (hz : VecShape o cond) (hov : dest.length < 2 ^ 32) (T U V : List Int → List Int) (hT : VecShape m' (source.map T))
    (hU : VecShape n' (dest.map U)) (hV : VecShape o' (cond.map V)) (hTi : ∀ u ∈ source, ∀ v ∈ source, T u = T v → u = v)
    (hUi : ∀ u ∈ dest, ∀ v ∈ dest, U u = U v → u = v) (hVi : ∀ u ∈ cond, ∀ v ∈ cond, V u = V v → u = v)
    (p : TEParams) (ch : PyArg) (pt off : Option PyArg) (b : Base) (hb : b.Valid) (mm : Bool) :
    discreteCTEVec (source.map T) (dest.map U) (some (cond.map V)) p ch pt off b mm =
      discreteCTEVec source dest (some cond) p ch pt off b mm := by
  have hc1 := vec_code_inj (source.map T)
  have hc2 := vec_code_inj (dest.map U)
  have hc3 := vec_code_inj (cond.map V)
  rw [C75_cte_recode (source.map T) (dest.map U) (cond.map V) m' n' o' hT hU hV (by simpa using hov) _ _ _ hc1 hc2 hc3 p ch pt off b hb mm,
    C75_cte_recode source dest cond m n o hx hy hz hov ((Int.ofNat ∘ npPos (source.map T)) ∘ T) ((Int.ofNat ∘ npPos (dest.map U)) ∘ U)
      ((Int.ofNat ∘ npPos (cond.map V)) ∘ V)
      (fun u hu v hv h => hTi u hu v hv (hc1 _ (List.mem_map_of_mem hu) _ (List.mem_map_of_mem hv) h))
      (fun u hu v hv h => hUi u hu v hv (hc2 _ (List.mem_map_of_mem hu) _ (List.mem_map_of_mem hv) h))
      (fun u hu v hv h => hVi u hu v hv (hc3 _ (List.mem_map_of_mem hu) _ (List.mem_map_of_mem hv) h)) p ch pt off b hb mm,
    List.map_map, List.map_map, List.map_map]

example := C75_cte_reencode [[0, 1], [1, 1], [0, 0], [0, 1], [1, 0]] [[2], [3], [2], [3], [3]] [[0], [1], [1], [0], [1]] 2 1 1 2 1 2
  ⟨by decide, by decide⟩ ⟨by decide, by decide⟩ ⟨by decide, by decide⟩ (by decide) List.reverse id (fun v => v ++ v)
  ⟨by decide, by decide⟩ ⟨by decide, by decide⟩ ⟨by decide, by decide⟩ (by decide) (by decide) (by decide)
  (teParams 1 1 1) (.int 1) none none (.num 2) (by norm_num [Base.Valid]) true

/-- **C75** The textbook formula: `I(future; source history | destination history and condition history)` of the embedded vectors, and
never negative. -/
theorem C75_cte_is_textbook (source dest cond : List (List Int)) (l k c s : Nat) (hs : 0 < s) (hl : 0 < l) (hk : 0 < k) (hc : 0 < c)
    (hm : max (max k l) c * s < source.length) (hlen : source.length = dest.length) (hlen2 : cond.length = dest.length)
    (hov : dest.length < 2 ^ 32) (m n o : Nat) (hx : VecShape m source) (hy : VecShape n dest) (hz : VecShape o cond)
    (b : Base) (hb : b.Std) :
    let M := max (max k l) c
    ∃ t, discreteCTEVec source dest (some cond) (teParams l k s) (.int c) (some (.int 0)) none b = .ok t ∧
      t = Spec.cmi (futRows dest dest.length M s) (histRows source dest.length M s l)
        ((histRows dest dest.length M s k).zip (histRows cond dest.length M s c)) / b.ln ∧ 0 ≤ t := by
  intro M
  have h := vec_cte_value source dest cond l k c s hs hl hk hc hm hlen hlen2 hov hx hy hz hb.valid false
  have hz' : (histRows dest dest.length M s k).zip (histRows cond dest.length M s c) =
      (List.range (numRows dest.length M s)).map (fun i => (histRow dest M s k i, histRow cond M s c i)) := by
    rw [histRows, histRows, zip_map_map]
  have hcmi : Spec.cmi (futRows dest dest.length M s) (histRows source dest.length M s l)
        ((histRows dest dest.length M s k).zip (histRows cond dest.length M s c)) =
      Spec.entropy ((List.range (numRows dest.length M s)).map (fun i => ([dest.getD ((M + i) * s) default],
          (histRow dest M s k i, histRow cond M s c i)))) +
        Spec.entropy ((List.range (numRows dest.length M s)).map (fun i => (histRow source M s l i,
          (histRow dest M s k i, histRow cond M s c i)))) -
        Spec.entropy ((List.range (numRows dest.length M s)).map (fun i => ([dest.getD ((M + i) * s) default],
          histRow source M s l i, (histRow dest M s k i, histRow cond M s c i)))) -
        Spec.entropy ((List.range (numRows dest.length M s)).map (fun i => (histRow dest M s k i, histRow cond M s c i))) := by
    rw [hz', cmi_eq_entropies _ _ _ (by simp [futRows, histRows]) (by simp [histRows]), futRows, histRows]
    simp only [zip_map_map]
  refine ⟨_, h, ?_, ?_⟩
  · rw [hcmi]
    simp only [hSpec, Bool.false_eq_true, if_false]
    rfl
  · have h0 := cmi_nonneg (futRows dest dest.length M s) (histRows source dest.length M s l)
      ((histRows dest dest.length M s k).zip (histRows cond dest.length M s c)) (by simp [futRows, histRows]) (by simp [histRows])
    rw [hcmi] at h0
    refine div_nonneg ?_ hb.ln_pos.le
    simp only [hSpec, Bool.false_eq_true, if_false]
    exact h0

example := C75_cte_is_textbook [[0, 1], [1, 1], [0, 0], [0, 1], [1, 0]] [[2], [3], [2], [3], [3]] [[0], [1], [1], [0], [1]] 1 2 1 1
  (by decide) (by decide) (by decide) (by decide) (by decide) rfl rfl (by decide) 2 1 1 ⟨by decide, by decide⟩
  ⟨by decide, by decide⟩ ⟨by decide, by decide⟩ (.num 2) (by norm_num [Base.Std])

/-- **C75** One local value per row of the embedding, averaging to the global value (plain and Miller–Madow). -/
theorem C75_local_mean (source dest cond : List (List Int)) (l k c s : Nat) (hs : 0 < s) (hl : 0 < l) (hk : 0 < k) (hc : 0 < c)
    (hm : max (max k l) c * s < source.length) (hlen : source.length = dest.length) (hlen2 : cond.length = dest.length)
    (hov : dest.length < 2 ^ 32) (b : Base) (hb : b.Valid) (mm : Bool) :
    ∃ g ls, discreteCTEVec source dest (some cond) (teParams l k s) (.int c) (some (.int 0)) none b mm = .ok g ∧
      discreteCTEVecLocal source dest (some cond) (teParams l k s) (.int c) (some (.int 0)) none b mm = .ok ls ∧
      ls.length = numRows dest.length (max (max k l) c) s ∧ Spec.mean ls = g := by
  set M := max (max k l) c with hM
  have hm' : M * s < dest.length := hlen ▸ hm
  have hR := numRows_pos hs hm'
  have hRl := lt_of_le_of_lt (numRows_le dest.length M s hs) hov
  set R := numRows dest.length M s with hRe
  have hov' : R ^ 2 < 2 ^ 64 := by
    have : R ^ 2 < (2 ^ 32) ^ 2 := Nat.pow_lt_pow_left hRl (by norm_num)
    simpa [← pow_mul] using this
  have ho : cteObservationsVec source dest cond (.int l) (.int k) (.int c) (.int s) =
      .ok { src := (List.range R).map (fun i => (histRow source M s l i).flatten)
            dest := (List.range R).map (fun i => (histRow dest M s k i).flatten)
            fut := (List.range R).map (fun i => [dest.getD ((M + i) * s) default].flatten)
            cond := some ((List.range R).map (fun i => (histRow cond M s c i).flatten)) } := by
    unfold cteObservationsVec
    rw [cteObservations_ok source dest cond l k c s hs hl hk hc hm hlen hlen2 lawful_none, srcSel_none, histRows, futRows, histRows]
    simp only [bind, Except.bind, pure, Except.pure, flatSlices, List.map_map, Option.map_some]
    rfl
  have h4 := concatRows_ok R (fun i => (histRow dest M s k i).flatten) [fun i => (histRow cond M s c i).flatten]
  simp only [List.map_cons, List.map_nil, List.flatten_cons, List.flatten_nil, List.append_nil] at h4
  obtain ⟨g, ls, e1, e2, e3, e4⟩ := cmi_local_mean
    [(List.range R).map (fun i => [dest.getD ((M + i) * s) default].flatten),
      (List.range R).map (fun i => (histRow source M s l i).flatten)]
    (rowCodes ((List.range R).map (fun i => (histRow dest M s k i).flatten ++ (histRow cond M s c i).flatten)))
    (by simp [rowCodes_length, hR]) (by simp)
    (by simp [rowCodes_length]) (by simpa [rowCodes_length] using hov') hb mm
  have hg : discreteCTEVec source dest (some cond) (teParams l k s) (.int c) (some (.int 0)) none b mm = .ok g := by
    simp only [discreteCTEVec, cteInit_zero hlen hlen2, bind, Except.bind, teParams, ho, combinedTE_cond, e1]
  refine ⟨g, ls, hg, ?_, by simpa [rowCodes_length] using e3, e4⟩
  simp only [discreteCTEVecLocal, cteInit_zero hlen hlen2, bind, Except.bind, teParams, ho, combinedTE_cond, e1]
  rw [← e2]
  simp only [combinedTELocal, reduceJointSpace, h4, bind, Except.bind, rowCodes]

example := C75_local_mean [[0, 1], [1, 1], [0, 0], [0, 1], [1, 0]] [[2], [3], [2], [3], [3]] [[0], [1], [1], [0], [1]] 1 2 1 1
  (by decide) (by decide) (by decide) (by decide) (by decide) rfl rfl (by decide) (.num 2) (by norm_num [Base.Valid]) true

end Verif
