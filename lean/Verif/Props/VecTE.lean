import Verif.Lemmas.VecTE
import Verif.Lemmas.Ordinal2

/-!
# Property C72 : transfer entropy of vector-valued series

`discreteTEVec source dest p pt o b mm rnd` is `transfer_entropy(source, dest, approach="discrete", …)` (`mm = true`:
`approach="millermadow"`) for arrays of shape `(n, m)`; `kernelTEVec`, `ksgTEVec`, `expTEVec` are the other approaches.
-/

namespace Verif

open Spec

/-! ## One-component vectors -/

/-- **C72** A series of one-component vectors gives exactly what the one-dimensional series gives — value or exception — for
every discrete estimator, all parameters, all propagation times and all permutations of the source. -/
theorem C72_scalar_discrete (source dest : List Int) (p : TEParams) (pt o : Option PyArg) (b : Base) (mm : Bool)
    (rnd : SrcRandom) (est : HEst) :
    discreteTEVec (source.map (fun x => [x])) (dest.map (fun x => [x])) p pt o b mm rnd =
      discreteTE source dest p pt o b mm rnd ∧
    discreteTEVecLocal (source.map (fun x => [x])) (dest.map (fun x => [x])) p pt o b mm rnd =
      discreteTELocal source dest p pt o b mm rnd ∧
    genericTEVec est (source.map (fun x => [x])) (dest.map (fun x => [x])) p pt o rnd = genericTE est source dest p pt o rnd := by
  unfold discreteTEVec discreteTE discreteTEVecLocal discreteTELocal genericTEVec genericTE
  simp only [teInit_map]
  cases teInit source dest pt o p.step with
  | error e => exact ⟨rfl, rfl, rfl⟩
  | ok d => simp only [Except.map, bind, Except.bind, teObservationsVec_single, and_self]

/-- **C72** The same for the conditional transfer entropy. -/
theorem C72_scalar_discrete_cond (source dest : List Int) (cond : Option (List Int)) (p : TEParams) (c : PyArg)
    (pt o : Option PyArg) (b : Base) (mm : Bool) :
    discreteCTEVec (source.map (fun x => [x])) (dest.map (fun x => [x])) (cond.map (List.map (fun x => [x]))) p c pt o b mm =
      discreteCTE source dest cond p c pt o b mm := by
  unfold discreteCTEVec discreteCTE
  simp only [cteInit_map]
  cases cteInit source dest cond pt o with
  | error e => rfl
  | ok d => simp only [Except.map, bind, Except.bind, cteObservationsVec_single]

/-- **C72** The same for the continuous approaches: kernel, KSG, Rényi and Tsallis. -/
theorem C72_scalar_continuous (source dest : List ℝ) (cond : Option (List ℝ)) (p : TEParams) (c : PyArg) (pt o : Option PyArg)
    (b : Base) (rnd : SrcRandom) (kde : KdeCfg) (ksg : KsgCfg) (eX eY eZ : Option (Nat → ℝ))
    (val : Nat → ℝ → KnnParts → ℝ → Base → Except Exc ℝ) (k order : PyArg) :
    kernelTEVec (source.map (fun x => [x])) (dest.map (fun x => [x])) p pt o kde b rnd = kernelTE source dest p pt o kde b rnd ∧
    kernelCTEVec (source.map (fun x => [x])) (dest.map (fun x => [x])) (cond.map (List.map (fun x => [x]))) p c pt o kde b =
      kernelCTE source dest cond p c pt o kde b ∧
    ksgTEVec (source.map (fun x => [x])) (dest.map (fun x => [x])) p pt o ksg (eX.map (fun e t _ => e t))
      (eY.map (fun e t _ => e t)) b rnd = ksgTE source dest p pt o ksg eX eY b rnd ∧
    ksgCTEVecLocal (source.map (fun x => [x])) (dest.map (fun x => [x])) (cond.map (List.map (fun x => [x]))) p c pt o ksg
      (eX.map (fun e t _ => e t)) (eY.map (fun e t _ => e t)) (eZ.map (fun e t _ => e t)) b =
      ksgCTELocal source dest cond p c pt o ksg eX eY eZ b ∧
    expTEVec val (source.map (fun x => [x])) (dest.map (fun x => [x])) p pt o k order (eX.map (fun e t _ => e t))
      (eY.map (fun e t _ => e t)) b rnd = expTE val source dest p pt o k order eX eY b rnd := by
  unfold kernelTEVec kernelTEVecLocal kernelTE kernelTELocal kernelCTEVec kernelCTE kernelCTELocal ksgTEVec ksgTEVecLocal ksgTE
    ksgTELocal ksgCTEVecLocal ksgCTELocal expTEVec expTE
  simp only [teInit_map, cteInit_map]
  refine ⟨?_, ?_, ?_, ?_, ?_⟩
  · cases teInit source dest pt o p.step with
    | error e => rfl
    | ok d => simp only [Except.map, bind, Except.bind, teObservationsVec_single]
  · cases cteInit source dest cond pt o with
    | error e => rfl
    | ok d =>
      simp only [Except.map, bind, Except.bind, cteObservationsVec_single]
      cases cteObservations d.1 d.2.1 d.2.2 p.srcHist p.destHist c p.step with
      | error e => rfl
      | ok s =>
        simp only []
        cases constructJointSpaces s <;> rfl
  · cases teInit source dest pt o p.step with
    | error e => rfl
    | ok d => simp only [Except.map, bind, Except.bind, jitterVec_single, teObservationsVec_single]
  · cases cteInit source dest cond pt o with
    | error e => rfl
    | ok d => simp only [Except.map, bind, Except.bind, jitterVec_single, cteObservationsVec_single]
  · cases teInit source dest pt o p.step with
    | error e => rfl
    | ok d => simp only [Except.map, bind, Except.bind, jitterVec_single, teObservationsVec_single]

/-! ## The embedding -/

theorem vec_flatten_inj {α : Type} {m : Nat} : ∀ {a c : List (List α)}, a.length = c.length → (∀ v ∈ a, v.length = m) →
    (∀ v ∈ c, v.length = m) → (a.flatten = c.flatten ↔ a = c)
  | [], [], _, _, _ => by simp
  | [], _ :: _, h, _, _ => by simp at h
  | _ :: _, [], h, _, _ => by simp at h
  | u :: a, v :: c, h, ha, hc => by
    simp only [List.flatten_cons, List.cons.injEq]
    rw [append_eq_iff (by rw [ha u (by simp), hc v (by simp)]), vec_flatten_inj (by simpa using h)
      (fun w hw => ha w (by simp [hw])) (fun w hw => hc w (by simp [hw]))]

theorem histRow_mem {α : Type} [Inhabited α] {xs : List α} {m s h i : Nat} (hs : 0 < s) (hh : h ≤ m) (hm : m * s < xs.length)
    (hi : i < numRows xs.length m s) : ∀ v ∈ histRow xs m s h i, v ∈ xs := by
  intro v hv
  obtain ⟨j, hj, rfl⟩ := List.mem_map.1 hv
  have hj' := List.mem_range.1 hj
  have h1 := (lt_numRows hs hm).1 hi
  have h2 : (m + i - h + j) * s < xs.length := lt_of_le_of_lt (Nat.mul_le_mul_right _ (by omega)) h1
  rw [List.getD_eq_getElem?_getD, List.getElem?_eq_getElem h2]
  exact List.getElem_mem h2

theorem futRow_mem {α : Type} [Inhabited α] {xs : List α} {m s i : Nat} (hs : 0 < s) (hm : m * s < xs.length)
    (hi : i < numRows xs.length m s) : xs.getD ((m + i) * s) default ∈ xs := by
  have h1 := (lt_numRows hs hm).1 hi
  rw [List.getD_eq_getElem?_getD, List.getElem?_eq_getElem h1]
  exact List.getElem_mem h1

/-- **C72** The embedding of vector-valued series: row `i` holds, as one flat vector, the destination vector at the anchor
`(M + i)·s`, the source vectors at the `l` times before it and the destination vectors at the `k` times before it, each in time
order, with the components of every vector in their order (`M = max k l`). -/
theorem C72_embedding {α : Type} (source dest : List (List α)) (l k s : Nat) (hs : 0 < s)
    (hl : 0 < l) (hk : 0 < k) (hm : max k l * s < source.length) (hlen : source.length = dest.length) :
    ∃ sl R, teObservationsVec source dest (.int l) (.int k) (.int s) = .ok sl ∧
      sl.src.length = R ∧ sl.dest.length = R ∧ sl.fut.length = R ∧ 0 < R ∧
      (∀ i, i < R ↔ (max k l + i) * s < dest.length) ∧
      (∀ i, i < R →
        sl.fut[i]? = some (dest.getD ((max k l + i) * s) []) ∧
        sl.src[i]? = some ((List.range l).flatMap (fun j => source.getD ((max k l + i - l + j) * s) [])) ∧
        sl.dest[i]? = some ((List.range k).flatMap (fun j => dest.getD ((max k l + i - k + j) * s) []))) := by
  obtain ⟨sl, R, h, h1, h2, h3, h4, h5, h6⟩ := C20_embedding source dest l k s hs hl hk hm hlen
  refine ⟨flatSlices sl, R, by simp [teObservationsVec, h, bind, Except.bind, pure, Except.pure], by simp [flatSlices, h1],
    by simp [flatSlices, h2], by simp [flatSlices, h3], h4, h5, fun i hi => ?_⟩
  obtain ⟨a1, a2, a3, _⟩ := h6 i hi
  refine ⟨?_, ?_, ?_⟩
  · simp only [flatSlices, List.getElem?_map, a1]
    simp only [List.getD, Option.map_some, List.flatten_cons, List.flatten_nil, List.append_nil]
    rfl
  · simp only [flatSlices, List.getElem?_map, a2, List.flatMap]; rfl
  · simp only [flatSlices, List.getElem?_map, a3, List.flatMap]; rfl

example := C72_embedding ([[1, 0], [0, 1], [1, 1], [0, 0]] : List (List Int)) [[2], [3], [2], [2]] 2 1 1 (by decide) (by decide) (by decide) (by decide) rfl

/-! ## Discrete estimators -/

/-- the sliced data as functions of the row number -/
theorem teObservationsVec_ok {α : Type} (source dest : List (List α)) (l k s : Nat) (hs : 0 < s)
    (hl : 0 < l) (hk : 0 < k) (hm : max k l * s < source.length) (hlen : source.length = dest.length)
    {rnd : SrcRandom} (hr : rnd.Lawful) :
    let R := numRows dest.length (max k l) s
    teObservationsVec source dest (.int l) (.int k) (.int s) rnd =
      .ok { src := (List.range R).map (fun i => (histRow source (max k l) s l ((srcSel rnd R).getD i 0)).flatten)
            dest := (List.range R).map (fun i => (histRow dest (max k l) s k i).flatten)
            fut := (List.range R).map (fun i => [dest.getD ((max k l + i) * s) default].flatten) } := by
  intro R
  unfold teObservationsVec
  rw [teObservations_ok source dest l k s hs hl hk hm hlen hr, srcRows_eq _ _ _ _ _ hr, histRows, futRows]
  simp only [bind, Except.bind, pure, Except.pure, flatSlices, List.map_map, Option.map_none]
  rfl

theorem srcSel_getD_lt {rnd : SrcRandom} (hr : rnd.Lawful) {R i : Nat} (hi : i < R) : (srcSel rnd R).getD i 0 < R := by
  have h : i < (srcSel rnd R).length := by rw [srcSel_length hr]; exact hi
  rw [List.getD_eq_getElem?_getD, List.getElem?_eq_getElem h]
  exact srcSel_lt hr R _ (List.getElem_mem h)

/-- widths of the vectors of the two series -/
def VecShape {α : Type} (m : Nat) (xs : List (List α)) : Prop := 0 < m ∧ ∀ v ∈ xs, v.length = m

theorem vec_te_value (source dest : List (List Int)) (l k s : Nat) (hs : 0 < s) (hl : 0 < l) (hk : 0 < k)
    (hm : max k l * s < source.length) (hlen : source.length = dest.length) (hov : dest.length < 2 ^ 32) {m n : Nat}
    (hx : VecShape m source) (hy : VecShape n dest) {b : Base} (hb : b.Valid) (mm : Bool) {rnd : SrcRandom} (hr : rnd.Lawful) :
    let R := numRows dest.length (max k l) s
    let f : Nat → List (List Int) := fun i => [dest.getD ((max k l + i) * s) default]
    let g : Nat → List (List Int) := fun i => histRow source (max k l) s l ((srcSel rnd R).getD i 0)
    let d : Nat → List (List Int) := histRow dest (max k l) s k
    discreteTEVec source dest (teParams l k s) (some (.int 0)) none b mm rnd =
      .ok ((hSpec mm ((List.range R).map (fun i => (f i, d i))) +
        hSpec mm ((List.range R).map (fun i => (g i, d i))) -
        hSpec mm ((List.range R).map (fun i => (f i, g i, d i))) -
        hSpec mm ((List.range R).map d)) / b.ln) := by
  intro R f g d
  have hm' : max k l * s < dest.length := hlen ▸ hm
  have hRl : R < 2 ^ 32 := lt_of_le_of_lt (numRows_le dest.length (max k l) s hs) hov
  simp only [discreteTEVec, teInit_zero hlen, bind, Except.bind, teParams,
    teObservationsVec_ok source dest l k s hs hl hk hm hlen hr, combinedTE_none]
  rw [cmiNdInt_codes _ (numRows_pos hs hm') hRl _ _ _ hb mm]
  have hf : ∀ u < R, ∀ v < R, ((f u).flatten = (f v).flatten ↔ f u = f v) := by
    intro u hu v hv
    refine vec_flatten_inj (m := n) (by simp [f]) ?_ ?_
    · intro w hw; rw [List.mem_singleton.1 hw]; exact hy.2 _ (futRow_mem hs hm' hu)
    · intro w hw; rw [List.mem_singleton.1 hw]; exact hy.2 _ (futRow_mem hs hm' hv)
  have hg : ∀ u < R, ∀ v < R, ((g u).flatten = (g v).flatten ↔ g u = g v) := by
    intro u hu v hv
    refine vec_flatten_inj (m := m) (by simp [g, histRow]) ?_ ?_
    · exact fun w hw => hx.2 _ (histRow_mem hs (by omega) hm (by rw [hlen]; exact srcSel_getD_lt hr hu) w hw)
    · exact fun w hw => hx.2 _ (histRow_mem hs (by omega) hm (by rw [hlen]; exact srcSel_getD_lt hr hv) w hw)
  have hd : ∀ u < R, ∀ v < R, ((d u).flatten = (d v).flatten ↔ d u = d v) := by
    intro u hu v hv
    refine vec_flatten_inj (m := n) (by simp [d, histRow]) ?_ ?_
    · exact fun w hw => hy.2 _ (histRow_mem hs (by omega) hm' hu w hw)
    · exact fun w hw => hy.2 _ (histRow_mem hs (by omega) hm' hv w hw)
  have e1 := hSpec_map_congr mm (List.range R) (fun i => ((f i).flatten, (d i).flatten)) (fun i => (f i, d i))
    (fun u hu v hv => by
      rw [Prod.mk.injEq, Prod.mk.injEq, hf u (List.mem_range.1 hu) v (List.mem_range.1 hv),
        hd u (List.mem_range.1 hu) v (List.mem_range.1 hv)])
  have e2 := hSpec_map_congr mm (List.range R) (fun i => ((g i).flatten, (d i).flatten)) (fun i => (g i, d i))
    (fun u hu v hv => by
      rw [Prod.mk.injEq, Prod.mk.injEq, hg u (List.mem_range.1 hu) v (List.mem_range.1 hv),
        hd u (List.mem_range.1 hu) v (List.mem_range.1 hv)])
  have e3 := hSpec_map_congr mm (List.range R) (fun i => ((f i).flatten, (g i).flatten, (d i).flatten))
    (fun i => (f i, g i, d i)) (fun u hu v hv => by
      simp only [Prod.mk.injEq]
      rw [hf u (List.mem_range.1 hu) v (List.mem_range.1 hv), hg u (List.mem_range.1 hu) v (List.mem_range.1 hv),
        hd u (List.mem_range.1 hu) v (List.mem_range.1 hv)])
  have e4 := hSpec_map_congr mm (List.range R) (fun i => (d i).flatten) d
    (fun u hu v hv => hd u (List.mem_range.1 hu) v (List.mem_range.1 hv))
  rw [← e1, ← e2, ← e3, ← e4]

theorem vecHistRow_map {α β : Type} [Inhabited α] [Inhabited β] (φ : α → β) {xs : List α} {m s h i : Nat} (hs : 0 < s) (hh : h ≤ m)
    (hm : m * s < xs.length) (hi : i < numRows xs.length m s) :
    histRow (xs.map φ) m s h i = (histRow xs m s h i).map φ := by
  unfold histRow
  rw [List.map_map]
  refine List.map_congr_left fun j hj => ?_
  have hj' := List.mem_range.1 hj
  have h1 := (lt_numRows hs hm).1 hi
  have h2 : (m + i - h + j) * s < xs.length := lt_of_le_of_lt (Nat.mul_le_mul_right _ (by omega)) h1
  simp [List.getD_eq_getElem?_getD, List.getElem?_eq_getElem h2]

theorem vecFutRow_map {α β : Type} [Inhabited α] [Inhabited β] (φ : α → β) {xs : List α} {m s i : Nat} (hs : 0 < s)
    (hm : m * s < xs.length) (hi : i < numRows xs.length m s) :
    (xs.map φ).getD ((m + i) * s) default = φ (xs.getD ((m + i) * s) default) := by
  have h1 := (lt_numRows hs hm).1 hi
  simp [List.getD_eq_getElem?_getD, List.getElem?_eq_getElem h1]

theorem vec_map_inj_on {α β : Type} {φ : α → β} {S : List α} (hφ : ∀ u ∈ S, ∀ v ∈ S, φ u = φ v → u = v) :
    ∀ {a c : List α}, (∀ v ∈ a, v ∈ S) → (∀ v ∈ c, v ∈ S) → (a.map φ = c.map φ ↔ a = c)
  | [], [], _, _ => by simp
  | [], _ :: _, _, _ => by simp
  | _ :: _, [], _, _ => by simp
  | u :: a, v :: c, ha, hc => by
    simp only [List.map_cons, List.cons.injEq]
    rw [vec_map_inj_on hφ (fun w hw => ha w (by simp [hw])) (fun w hw => hc w (by simp [hw]))]
    refine and_congr_left fun _ => ⟨hφ u (ha u (by simp)) v (hc v (by simp)), fun h => by rw [h]⟩

theorem hSpec_combo_congr {Ω A B C A' B' C' : Type} [DecidableEq A] [DecidableEq B] [DecidableEq C] [DecidableEq A']
    [DecidableEq B'] [DecidableEq C'] (mm : Bool) (ws : List Ω) {f : Ω → A} {g : Ω → B} {d : Ω → C} {f' : Ω → A'} {g' : Ω → B'}
    {d' : Ω → C'} (hf : ∀ u ∈ ws, ∀ v ∈ ws, (f u = f v ↔ f' u = f' v)) (hg : ∀ u ∈ ws, ∀ v ∈ ws, (g u = g v ↔ g' u = g' v))
    (hd : ∀ u ∈ ws, ∀ v ∈ ws, (d u = d v ↔ d' u = d' v)) :
    hSpec mm (ws.map (fun i => (f i, d i))) + hSpec mm (ws.map (fun i => (g i, d i))) -
      hSpec mm (ws.map (fun i => (f i, g i, d i))) - hSpec mm (ws.map d) =
    hSpec mm (ws.map (fun i => (f' i, d' i))) + hSpec mm (ws.map (fun i => (g' i, d' i))) -
      hSpec mm (ws.map (fun i => (f' i, g' i, d' i))) - hSpec mm (ws.map d') := by
  rw [hSpec_map_congr mm ws (fun i => (f i, d i)) (fun i => (f' i, d' i)) (fun u hu v hv => by
        simp only [Prod.mk.injEq]; rw [hf u hu v hv, hd u hu v hv]),
    hSpec_map_congr mm ws (fun i => (g i, d i)) (fun i => (g' i, d' i)) (fun u hu v hv => by
        simp only [Prod.mk.injEq]; rw [hg u hu v hv, hd u hu v hv]),
    hSpec_map_congr mm ws (fun i => (f i, g i, d i)) (fun i => (f' i, g' i, d' i)) (fun u hu v hv => by
        simp only [Prod.mk.injEq]; rw [hf u hu v hv, hg u hu v hv, hd u hu v hv]),
    hSpec_map_congr mm ws d d' hd]

theorem vec_te_recode (source dest : List (List Int)) (l k s : Nat) (hs : 0 < s) (hl : 0 < l) (hk : 0 < k)
    (hm : max k l * s < source.length) (hlen : source.length = dest.length) (hov : dest.length < 2 ^ 32) {m n : Nat}
    (hx : VecShape m source) (hy : VecShape n dest) (φ ψ : List Int → Int)
    (hφ : ∀ u ∈ source, ∀ v ∈ source, φ u = φ v → u = v) (hψ : ∀ u ∈ dest, ∀ v ∈ dest, ψ u = ψ v → u = v)
    {b : Base} (hb : b.Valid) (mm : Bool) {rnd : SrcRandom} (hr : rnd.Lawful) :
    discreteTEVec source dest (teParams l k s) (some (.int 0)) none b mm rnd =
      discreteTE (source.map φ) (dest.map ψ) (teParams l k s) (some (.int 0)) none b mm rnd := by
  have hm' : max k l * s < dest.length := hlen ▸ hm
  rw [vec_te_value source dest l k s hs hl hk hm hlen hov hx hy hb mm hr]
  obtain ⟨f, g, d, R, hR, _, _, _, hRe, ef, eg, ed, _, h⟩ :=
    te_value (source.map φ) (dest.map ψ) l k s hs hl hk (by simpa using hm) (by simpa using hlen) (by simpa using hov) hb mm hr
  rw [h]
  rw [List.length_map] at hRe
  rw [← hRe]
  have hf : ∀ u < R, f u = [ψ (dest.getD ((max k l + u) * s) default)] := by
    intro u hu
    rw [← ef]
    simp only
    rw [vecFutRow_map ψ hs hm' (hRe ▸ hu)]
  have hg : ∀ u < R, g u = (histRow source (max k l) s l ((srcSel rnd R).getD u 0)).map φ := by
    intro u hu
    rw [← eg]
    exact vecHistRow_map φ hs (by omega) hm (by rw [hlen, ← hRe]; exact srcSel_getD_lt hr hu)
  have hd : ∀ u < R, d u = (histRow dest (max k l) s k u).map ψ := by
    intro u hu
    rw [← ed]
    exact vecHistRow_map ψ hs (by omega) hm' (hRe ▸ hu)
  have hf' : ∀ u ∈ List.range R, ∀ v ∈ List.range R, ([dest.getD ((max k l + u) * s) default] =
      [dest.getD ((max k l + v) * s) default] ↔ f u = f v) := by
    intro u hu v hv
    have hu' := List.mem_range.1 hu
    have hv' := List.mem_range.1 hv
    rw [hf u hu', hf v hv']
    simp only [List.cons.injEq, and_true]
    exact ⟨fun e => by rw [e], hψ _ (futRow_mem hs hm' (hRe ▸ hu')) _ (futRow_mem hs hm' (hRe ▸ hv'))⟩
  have hg' : ∀ u ∈ List.range R, ∀ v ∈ List.range R, (histRow source (max k l) s l ((srcSel rnd R).getD u 0) =
      histRow source (max k l) s l ((srcSel rnd R).getD v 0) ↔ g u = g v) := by
    intro u hu v hv
    have hu' := List.mem_range.1 hu
    have hv' := List.mem_range.1 hv
    rw [hg u hu', hg v hv']
    exact (vec_map_inj_on hφ (histRow_mem hs (by omega) hm (by rw [hlen, ← hRe]; exact srcSel_getD_lt hr hu'))
      (histRow_mem hs (by omega) hm (by rw [hlen, ← hRe]; exact srcSel_getD_lt hr hv'))).symm
  have hd' : ∀ u ∈ List.range R, ∀ v ∈ List.range R, (histRow dest (max k l) s k u =
      histRow dest (max k l) s k v ↔ d u = d v) := by
    intro u hu v hv
    have hu' := List.mem_range.1 hu
    have hv' := List.mem_range.1 hv
    rw [hd u hu', hd v hv']
    exact (vec_map_inj_on hψ (histRow_mem hs (by omega) hm' (hRe ▸ hu')) (histRow_mem hs (by omega) hm' (hRe ▸ hv'))).symm
  congr 2
  exact hSpec_combo_congr mm (List.range R) hf' hg' hd'

/-- parameters and data that pass the checks of the embedding -/
theorem teObservationsVec_cases {α : Type} (x y : List (List α)) (a b st : PyArg) (rnd : SrcRandom) (hr : rnd.Contract)
    (hlen : x.length = y.length) {β : Type} (φ ψ : List α → β) [Inhabited β] :
    (∃ l k s : Nat, a = .int l ∧ b = .int k ∧ st = .int s ∧ 0 < l ∧ 0 < k ∧ 0 < s ∧ max k l * s < x.length ∧ rnd.Lawful) ∨
    (∃ e, teObservationsVec x y a b st rnd = .error e ∧ teObservations (x.map φ) (y.map ψ) a b st rnd = .error e) := by
  have hg := C21_te_guard_exact x y a b st rnd hr hlen
  simp only at hg
  obtain ⟨h1, h2, h3⟩ := hg
  by_cases hv : ∃ l k s : Nat, a = .int l ∧ b = .int k ∧ st = .int s ∧ 0 < l ∧ 0 < k ∧ 0 < s ∧
      max l k * s < x.length ∧ ¬ (rnd.permute.isSome ∧ rnd.resample.isSome)
  · obtain ⟨l, k, s, e1, e2, e3, p1, p2, p3, p4, p5⟩ := hv
    exact .inl ⟨l, k, s, e1, e2, e3, p1, p2, p3, by rwa [max_comm], p5, hr⟩
  · right
    rw [teObservations_map φ ψ φ]
    by_cases hst : st = .other
    · exact ⟨.typeError, by rw [teObservationsVec, h2.2 hst]; rfl, by rw [h2.2 hst]; rfl⟩
    · exact ⟨.valueError, by rw [teObservationsVec, h3.2 ⟨hst, hv⟩]; rfl, by rw [h3.2 ⟨hst, hv⟩]; rfl⟩

theorem pySlice_mem {α : Type} {l : List α} {a b : Option Int} {v : α} (h : v ∈ pySlice l a b) : v ∈ l :=
  List.mem_of_mem_take (List.mem_of_mem_drop h)

theorem pySlice_length_le {α : Type} (l : List α) (a b : Option Int) : (pySlice l a b).length ≤ l.length := by
  unfold pySlice
  rw [List.length_drop, List.length_take]
  omega

theorem teInit_shape {α : Type} {source dest x y : List α} {pt o : Option PyArg} {st : PyArg}
    (h : teInit source dest pt o st = .ok (x, y)) :
    (st.posInt = true → x.length = y.length) ∧ (∀ v ∈ x, v ∈ source) ∧ (∀ v ∈ y, v ∈ dest) ∧ y.length ≤ dest.length := by
  unfold teInit at h
  simp only at h
  split at h
  · simp at h
  · split_ifs at h with hl
    · push Not at hl
      split at h
      · split_ifs at h with h0 h1
        · simp only [Except.ok.injEq, Prod.mk.injEq] at h
          obtain ⟨rfl, rfl⟩ := h
          exact ⟨fun _ => hl, fun _ => id, fun _ => id, le_refl _⟩
        · cases st with
          | int s =>
            simp only [Except.ok.injEq, Prod.mk.injEq] at h
            obtain ⟨rfl, rfl⟩ := h
            refine ⟨fun hp => ?_, fun _ => pySlice_mem, fun _ => pySlice_mem, pySlice_length_le _ _ _⟩
            rename_i p _
            have hs : 0 < s := by simpa [PyArg.posInt] using hp
            obtain ⟨q, hq⟩ : ∃ q : Nat, (q : Int) = p * s := ⟨(p * s).toNat, by rw [Int.toNat_of_nonneg (by positivity)]⟩
            have hq0 : 0 < q := by
              have : 0 < p * s := by positivity
              omega
            rw [neg_mul, ← hq, orNone, if_neg (by omega), pySlice_neg _ _ hq0, pySlice_pos]
            simp [hl]
          | num _ => simp at h
          | other => simp at h
        · cases st with
          | int s =>
            simp only [Except.ok.injEq, Prod.mk.injEq] at h
            obtain ⟨rfl, rfl⟩ := h
            refine ⟨fun hp => ?_, fun _ => pySlice_mem, fun _ => pySlice_mem, pySlice_length_le _ _ _⟩
            rename_i p _
            have hs : 0 < s := by simpa [PyArg.posInt] using hp
            have hp' : 0 < -p := by omega
            obtain ⟨q, hq⟩ : ∃ q : Nat, (q : Int) = -p * s := ⟨(-p * s).toNat, by rw [Int.toNat_of_nonneg (by positivity)]⟩
            have hq0 : 0 < q := by
              have : 0 < -p * s := by positivity
              omega
            rw [← hq, show p * s = -(q : Int) by rw [hq]; ring, orNone, if_neg (by omega), pySlice_neg _ _ hq0, pySlice_pos]
            simp [hl]
          | num _ => simp at h
          | other => simp at h
      · simp at h

/-- **C72** Discrete (and Miller–Madow) transfer entropy of vector-valued series is the transfer entropy of the scalar series
obtained by giving every distinct vector its own label — any injective labelling, separately for source and destination — for
all parameters, propagation times and source permutations, including the exceptions raised. -/
theorem C72_te_recode (source dest : List (List Int)) (m n : Nat) (hx : VecShape m source) (hy : VecShape n dest)
    (hov : dest.length < 2 ^ 32) (φ ψ : List Int → Int) (hφ : ∀ u ∈ source, ∀ v ∈ source, φ u = φ v → u = v)
    (hψ : ∀ u ∈ dest, ∀ v ∈ dest, ψ u = ψ v → u = v) (p : TEParams) (pt o : Option PyArg) (b : Base) (hb : b.Valid) (mm : Bool)
    (rnd : SrcRandom) (hr : rnd.Contract) :
    discreteTEVec source dest p pt o b mm rnd = discreteTE (source.map φ) (dest.map ψ) p pt o b mm rnd := by
  unfold discreteTEVec discreteTE
  rw [teInit_map]
  cases hi : teInit source dest pt o p.step with
  | error e => rfl
  | ok d =>
    obtain ⟨x, y⟩ := d
    obtain ⟨s1, s2, s3, s4⟩ := teInit_shape hi
    simp only [Except.map, bind, Except.bind]
    by_cases hst : p.step.posInt = true
    · have hlen := s1 hst
      rcases teObservationsVec_cases x y p.srcHist p.destHist p.step rnd hr hlen φ ψ with
        ⟨l, k, s, e1, e2, e3, p1, p2, p3, p4, hl⟩ | ⟨e, h1, h2⟩
      · have := vec_te_recode x y l k s p3 p1 p2 p4 hlen (by omega) (m := m) (n := n) ⟨hx.1, fun v hv => hx.2 v (s2 v hv)⟩
          ⟨hy.1, fun v hv => hy.2 v (s3 v hv)⟩ φ ψ (fun u hu v hv => hφ u (s2 u hu) v (s2 v hv))
          (fun u hu v hv => hψ u (s3 u hu) v (s3 v hv)) hb mm hl
        simp only [discreteTEVec, discreteTE, teInit_zero hlen, teInit_zero (show (x.map φ).length = (y.map ψ).length by
          simpa using hlen), bind, Except.bind, teParams] at this
        rw [e1, e2, e3]
        exact this
      · rw [h1, h2]
    · have hst' : p.step.posInt = false := by simpa using hst
      rw [teObservations_map φ ψ φ]
      have : ∃ e, teObservations x y p.srcHist p.destHist p.step rnd = .error e := by
        unfold teObservations
        cases hs : p.step with
        | other => exact ⟨_, rfl⟩
        | int n =>
          rw [hs] at hst'
          exact ⟨_, if_pos (by simp [hst'])⟩
        | num n =>
          rw [hs] at hst'
          exact ⟨_, if_pos (by simp [hst'])⟩
      obtain ⟨e, he⟩ := this
      simp only [teObservationsVec, he, bind, Except.bind, Except.map]

/-- an injective labelling exists for every finite collection of vectors -/
theorem vec_code_inj (xs : List (List Int)) : ∀ u ∈ xs, ∀ v ∈ xs, (Int.ofNat ∘ npPos xs) u = (Int.ofNat ∘ npPos xs) v → u = v :=
  fun _ hu _ hv h => (rowCodes_inj xs hu hv).1 h

/-- **C72** The vectors' values are irrelevant: applying to every source vector one injective map and to every destination
vector another — reordering the components, adding a redundant component, changing the number of components — leaves the
discrete and Miller–Madow transfer entropy unchanged, exceptions included. -/
theorem C72_te_reencode (source dest : List (List Int)) (m n m' n' : Nat) (hx : VecShape m source) (hy : VecShape n dest)
    (hov : dest.length < 2 ^ 32) (T U : List Int → List Int) (hT : VecShape m' (source.map T)) (hU : VecShape n' (dest.map U))
    (hTi : ∀ u ∈ source, ∀ v ∈ source, T u = T v → u = v) (hUi : ∀ u ∈ dest, ∀ v ∈ dest, U u = U v → u = v)
    (p : TEParams) (pt o : Option PyArg) (b : Base) (hb : b.Valid) (mm : Bool) (rnd : SrcRandom) (hr : rnd.Contract) :
    discreteTEVec (source.map T) (dest.map U) p pt o b mm rnd = discreteTEVec source dest p pt o b mm rnd := by
  have hc1 := vec_code_inj (source.map T)
  have hc2 := vec_code_inj (dest.map U)
  rw [C72_te_recode (source.map T) (dest.map U) m' n' hT hU (by simpa using hov) _ _ hc1 hc2 p pt o b hb mm rnd hr,
    C72_te_recode source dest m n hx hy hov ((Int.ofNat ∘ npPos (source.map T)) ∘ T) ((Int.ofNat ∘ npPos (dest.map U)) ∘ U)
      (fun u hu v hv h => hTi u hu v hv (hc1 _ (List.mem_map_of_mem hu) _ (List.mem_map_of_mem hv) h))
      (fun u hu v hv h => hUi u hu v hv (hc2 _ (List.mem_map_of_mem hu) _ (List.mem_map_of_mem hv) h)) p pt o b hb mm rnd hr,
    List.map_map, List.map_map]

/-- **C72** The textbook formula: `I(future; source history | destination history)` of the embedded vector histories, and
non-negative. -/
theorem C72_te_is_textbook (source dest : List (List Int)) (l k s : Nat) (hs : 0 < s) (hl : 0 < l) (hk : 0 < k)
    (hm : max k l * s < source.length) (hlen : source.length = dest.length) (hov : dest.length < 2 ^ 32) (m n : Nat)
    (hx : VecShape m source) (hy : VecShape n dest) (b : Base) (hb : b.Std) :
    ∃ t, discreteTEVec source dest (teParams l k s) (some (.int 0)) none b = .ok t ∧
      t = Spec.cmi (futRows dest dest.length (max k l) s) (histRows source dest.length (max k l) s l)
        (histRows dest dest.length (max k l) s k) / b.ln ∧ 0 ≤ t := by
  refine ⟨_, vec_te_value source dest l k s hs hl hk hm hlen hov hx hy hb.valid false lawful_none, ?_, ?_⟩
  · rw [cmi_eq_entropies _ _ _ (by simp [futRows, histRows]) (by simp [histRows])]
    simp only [hSpec, Bool.false_eq_true, if_false, futRows, histRows, zip_map_map]
    have hget : ∀ i ∈ List.range (numRows dest.length (max k l) s),
        (srcSel {} (numRows dest.length (max k l) s)).getD i 0 = i := by
      intro i hi
      rw [srcSel_none, List.getD_eq_getElem?_getD]
      simp [List.mem_range.1 hi]
    have e1 : (List.range (numRows dest.length (max k l) s)).map (fun i => (histRow source (max k l) s l
        ((srcSel {} (numRows dest.length (max k l) s)).getD i 0), histRow dest (max k l) s k i)) =
        (List.range (numRows dest.length (max k l) s)).map (fun i => (histRow source (max k l) s l i,
          histRow dest (max k l) s k i)) := List.map_congr_left fun i hi => by rw [hget i hi]
    have e2 : (List.range (numRows dest.length (max k l) s)).map (fun i =>
        ([dest.getD ((max k l + i) * s) default], histRow source (max k l) s l
        ((srcSel {} (numRows dest.length (max k l) s)).getD i 0), histRow dest (max k l) s k i)) =
        (List.range (numRows dest.length (max k l) s)).map (fun i =>
          ([dest.getD ((max k l + i) * s) default], histRow source (max k l) s l i,
          histRow dest (max k l) s k i)) := List.map_congr_left fun i hi => by rw [hget i hi]
    rw [e1, e2]
  · refine div_nonneg ?_ hb.ln_pos.le
    simp only [hSpec, Bool.false_eq_true, if_false]
    have := cmi_nonneg ((List.range (numRows dest.length (max k l) s)).map (fun i => [dest.getD ((max k l + i) * s) default]))
      ((List.range (numRows dest.length (max k l) s)).map (fun i => histRow source (max k l) s l
        ((srcSel {} (numRows dest.length (max k l) s)).getD i 0)))
      ((List.range (numRows dest.length (max k l) s)).map (histRow dest (max k l) s k)) (by simp) (by simp)
    rw [cmi_eq_entropies _ _ _ (by simp) (by simp)] at this
    simp only [zip_map_map] at this
    exact this

example := C72_te_is_textbook [[1, 0], [0, 1], [1, 1], [0, 0]] [[2], [3], [2], [2]] 2 1 1 (by decide) (by decide) (by decide) (by decide) rfl (by decide) 2 1 ⟨by decide, by decide⟩ ⟨by decide, by decide⟩ (.num 2) (by norm_num [Base.Std])

/-- **C72** One local value per row of the embedding, averaging to the global value. -/
theorem C72_local_mean (source dest : List (List Int)) (l k s : Nat) (hs : 0 < s) (hl : 0 < l) (hk : 0 < k)
    (hm : max k l * s < source.length) (hlen : source.length = dest.length) (hov : dest.length < 2 ^ 32)
    (b : Base) (hb : b.Valid) (mm : Bool) (rnd : SrcRandom) (hr : rnd.Lawful) :
    ∃ g ls, discreteTEVec source dest (teParams l k s) (some (.int 0)) none b mm rnd = .ok g ∧
      discreteTEVecLocal source dest (teParams l k s) (some (.int 0)) none b mm rnd = .ok ls ∧
      ls.length = numRows dest.length (max k l) s ∧ Spec.mean ls = g := by
  have hm' : max k l * s < dest.length := hlen ▸ hm
  have h := teObservationsVec_ok source dest l k s hs hl hk hm hlen hr
  have hR := numRows_pos hs hm'
  have hRl := lt_of_le_of_lt (numRows_le dest.length (max k l) s hs) hov
  simp only at h
  set R := numRows dest.length (max k l) s with hRe
  have hov' : R ^ 2 < 2 ^ 64 := by
    have : R ^ 2 < (2 ^ 32) ^ 2 := Nat.pow_lt_pow_left hRl (by norm_num)
    simpa [← pow_mul] using this
  have hzl : (rowCodes ((List.range R).map (fun i => (histRow dest (max k l) s k i).flatten))).length = R := by
    simp [rowCodes_length]
  obtain ⟨g, ls, e1, e2, e3, e4⟩ := cmi_local_mean
    [(List.range R).map (fun i => [dest.getD ((max k l + i) * s) default].flatten),
      (List.range R).map (fun i => (histRow source (max k l) s l ((srcSel rnd R).getD i 0)).flatten)]
    (rowCodes ((List.range R).map (fun i => (histRow dest (max k l) s k i).flatten))) (by omega) (by simp)
    (by simp [hzl]) (by simpa [hzl] using hov') hb mm
  refine ⟨g, ls, ?_, ?_, by omega, e4⟩
  · rw [← e1]
    simp only [discreteTEVec, teInit_zero hlen, bind, Except.bind, teParams, h, combinedTE, reduceJointSpace, rowCodes]
  · rw [← e2]
    simp only [discreteTEVecLocal, teInit_zero hlen, bind, Except.bind, teParams, h, combinedTELocal, reduceJointSpace,
      rowCodes]

/-- non-vacuity: two-component source, one-component destination, a propagation time; the labels of the source vectors are
`2·a + b`, those of the destination vectors their only component -/
example : discreteTEVec [[0, 1], [1, 1], [0, 0], [0, 1], [1, 0]] [[2], [3], [2], [3], [3]] (teParams 1 1 1) (some (.int 1)) none .e =
    discreteTE [1, 3, 0, 1, 2] [2, 3, 2, 3, 3] (teParams 1 1 1) (some (.int 1)) none .e :=
  C72_te_recode [[0, 1], [1, 1], [0, 0], [0, 1], [1, 0]] [[2], [3], [2], [3], [3]] 2 1 ⟨by simp, by simp⟩ ⟨by simp, by simp⟩
    (by simp) (fun v => 2 * v.getD 0 0 + v.getD 1 0) (fun v => v.getD 0 0) (by decide) (by decide) _ _ _ .e trivial
    false {} ⟨by simp, by simp⟩

/-- non-vacuity: duplicating the only component of the source -/
example : discreteTEVec ([[0], [1], [0], [0], [1]].map (fun v => v ++ v)) ([[2], [3], [2], [3], [3]].map id) (teParams 1 1 1)
      (some (.int 0)) none .e =
    discreteTEVec [[0], [1], [0], [0], [1]] [[2], [3], [2], [3], [3]] (teParams 1 1 1) (some (.int 0)) none .e :=
  C72_te_reencode [[0], [1], [0], [0], [1]] [[2], [3], [2], [3], [3]] 1 1 2 1 ⟨by simp, by simp⟩ ⟨by simp, by simp⟩ (by simp) (fun v => v ++ v) id ⟨by simp, by simp⟩
    ⟨by simp, by simp⟩ (by simp) (fun _ _ _ _ h => h) _ _ _ .e trivial false {} ⟨by simp, by simp⟩

end Verif
