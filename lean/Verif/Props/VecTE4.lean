import Verif.Model.EndToEndVec
import Verif.Props.VecTE3
import Verif.Props.CondTE2
import Verif.Props.BiasMI
import Verif.Props.Nsb2

/-!
# C72: the bias-corrected classes and NSB for vector-valued series

The values of the transfer entropies of two-dimensional integer arrays: the entropy combination of the embedding whose entries are vectors.
-/

namespace Verif

open Spec

/-- a row function of constant width that agrees on the first `R` rows -/
theorem vb_pad {R w : Nat} (f : Nat → List Int) (hf : ∀ i < R, (f i).length = w) :
    ∃ g : Nat → List Int, (∀ i, (g i).length = w) ∧ ∀ i < R, g i = f i := by
  refine ⟨fun i => if i < R then f i else List.replicate w 0, fun i => ?_, fun i hi => by simp [hi]⟩
  by_cases hi : i < R
  · simp [hi, hf i hi]
  · simp [hi]

theorem vb_range_congr {β : Type} {R : Nat} {f g : Nat → β} (h : ∀ i < R, g i = f i) : (List.range R).map g = (List.range R).map f :=
  List.map_congr_left fun i hi => h i (List.mem_range.1 hi)

/-- flattened histories of fixed width, one for one with the histories -/
theorem vb_hist (xs : List (List Int)) {N M s h w : Nat} (hs : 0 < s) (hN : xs.length = N) (hm : M * s < N) (hh : h ≤ M)
    (hx : VecShape w xs) :
    ∃ g : Nat → List Int, (∀ i, (g i).length = h * w) ∧ (∀ i < numRows N M s, g i = (histRow xs M s h i).flatten) ∧
      ∀ u < numRows N M s, ∀ v < numRows N M s, (g u = g v ↔ histRow xs M s h u = histRow xs M s h v) := by
  have hw : ∀ i < numRows N M s, ∀ v ∈ histRow xs M s h i, v.length = w := fun i hi v hv =>
    hx.2 v (histRow_mem hs hh (by rw [hN]; exact hm) (by rw [hN]; exact hi) v hv)
  obtain ⟨g, hg, eg⟩ := vb_pad (R := numRows N M s) (w := h * w) (fun i => (histRow xs M s h i).flatten) (fun i hi => by
    rw [flatten_width (m := w) (hw i hi)]
    simp [histRow])
  refine ⟨g, hg, eg, fun u hu v hv => ?_⟩
  rw [eg u hu, eg v hv]
  exact vec_flatten_inj (by simp [histRow]) (hw u hu) (hw v hv)

theorem vb_fut (xs : List (List Int)) {N M s w : Nat} (hs : 0 < s) (hN : xs.length = N) (hm : M * s < N) (hx : VecShape w xs) :
    ∃ f : Nat → List Int, (∀ i, (f i).length = w) ∧ (∀ i < numRows N M s, f i = [xs.getD ((M + i) * s) default].flatten) ∧
      ∀ u < numRows N M s, ∀ v < numRows N M s, (f u = f v ↔ [xs.getD ((M + u) * s) default] = [xs.getD ((M + v) * s) default]) := by
  have hw : ∀ i < numRows N M s, ([xs.getD ((M + i) * s) default].flatten).length = w := fun i hi => by
    rw [List.flatten_cons, List.flatten_nil, List.append_nil]
    exact hx.2 _ (futRow_mem hs (by rw [hN]; exact hm) (by rw [hN]; exact hi))
  obtain ⟨f, hf, ef⟩ := vb_pad (R := numRows N M s) (w := w) (fun i => [xs.getD ((M + i) * s) default].flatten) hw
  refine ⟨f, hf, ef, fun u hu v hv => ?_⟩
  rw [ef u hu, ef v hv]
  simp

/-- **C72** Bias-corrected transfer entropy of vector-valued series: `H(F,D) + H(G,D) − H(F,G,D) − H(D)` with the published formula of the
class, where the entries of the histories are vectors; for ANSB no finite value exactly when all embedded observations are distinct. -/
theorem C72_bias_te (c : BiasClass) (m : Method) (h : c.Means m) (source dest : List (List Int)) (l k s : Nat) (hs : 0 < s) (hl : 0 < l)
    (hk : 0 < k) (hm : max k l * s < source.length) (hlen : source.length = dest.length) (wx wy : Nat) (hx : VecShape wx source)
    (hy : VecShape wy dest) (b : Base) (hb : b.Valid) :
    let F := futRows dest dest.length (max k l) s
    let G := histRows source dest.length (max k l) s l
    let D := histRows dest dest.length (max k l) s k
    (m.Defined (F.zip (G.zip D)) → biasTEVec c source dest (teParams l k s) (some (.int 0)) none b =
      .ok ((m.value (F.zip D) + m.value (G.zip D) - m.value (F.zip (G.zip D)) - m.value D) / b.ln)) ∧
    (¬ m.Defined (F.zip (G.zip D)) → biasTEVec c source dest (teParams l k s) (some (.int 0)) none b = .error .nonFinite) := by
  intro F G D
  have hm' : max k l * s < dest.length := hlen ▸ hm
  set R := numRows dest.length (max k l) s with hRdef
  have hR : 0 < R := numRows_pos hs hm'
  obtain ⟨f, fl, ef, jf⟩ := vb_fut dest hs rfl hm' hy
  obtain ⟨g, gl, eg, jg⟩ := vb_hist source (h := l) hs hlen hm' (le_max_right _ _) hx
  obtain ⟨d, dl, ed, jd⟩ := vb_hist dest (h := k) hs rfl hm' (le_max_left _ _) hy
  have hsl : teObservationsVec source dest (.int l) (.int k) (.int s) =
      .ok { src := (List.range R).map g, dest := (List.range R).map d, fut := (List.range R).map f } := by
    rw [teObservationsVec_ok source dest l k s hs hl hk hm hlen lawful_none, srcSel_none, vb_range_congr ef, vb_range_congr eg,
      vb_range_congr ed]
    have : (List.range R).map (fun i => (histRow source (max k l) s l ((List.range R).getD i 0)).flatten) =
        (List.range R).map (fun i => (histRow source (max k l) s l i).flatten) :=
      List.map_congr_left fun i hi => by
        rw [List.getD_eq_getElem?_getD]; simp [List.mem_range.1 hi]
    rw [this]
  have e : biasTEVec c source dest (teParams l k s) (some (.int 0)) none b = (do
        let a ← hConstruct (.arr2 ((List.range R).map (fun i => d i ++ f i)))
        let b' ← hConstruct (.arr2 ((List.range R).map (fun i => g i ++ d i)))
        let c' ← hConstruct (.arr2 ((List.range R).map (fun i => g i ++ d i ++ f i)))
        let d ← hConstruct (.arr2 ((List.range R).map d))
        combineH (c.est b) [a, b'] [c', d]) := by
    simp only [biasTEVec, genericTEVec, teInit_zero hlen, means_check h, teParams, hsl, teSpaces_ok R f g d, bind, Except.bind]
  have j2 : ∀ u v, g u ++ d u ++ f u = g v ++ d v ++ f v ↔ (f u, g u, d u) = (f v, g v, d v) := by
    intro u v
    rw [append_eq_iff (by simp [gl, dl]), append_eq_iff (by simp [gl]), Prod.mk.injEq, Prod.mk.injEq]
    tauto
  obtain ⟨k1, k2⟩ := bias_spaces h hb hR (fun i => d i ++ f i) (fun i => g i ++ d i) (fun i => g i ++ d i ++ f i) d
    (fun u v huv => by
      have := (j2 u v).1 huv; simp only [Prod.mk.injEq] at this; simp only [this.1, this.2.2])
    (fun u v huv => by
      have := (j2 u v).1 huv; simp only [Prod.mk.injEq] at this; simp only [this.2.1, this.2.2])
    (fun u v huv => by
      have := (j2 u v).1 huv; simp only [Prod.mk.injEq] at this; exact this.2.2)
  have hF : F = (List.range R).map (fun i => [dest.getD ((max k l + i) * s) default]) := rfl
  have hG : G = (List.range R).map (histRow source (max k l) s l) := rfl
  have hD : D = (List.range R).map (histRow dest (max k l) s k) := rfl
  have sJ : SameCounts ((List.range R).map (fun i => g i ++ d i ++ f i)) (F.zip (G.zip D)) := by
    rw [hF, hG, hD, zip_range_map, zip_range_map]
    refine sameCounts_map _ _ _ fun u hu v hv => ?_
    have hu' := List.mem_range.1 hu
    have hv' := List.mem_range.1 hv
    rw [j2 u v]
    simp only [Prod.mk.injEq]
    rw [jf u hu' v hv', jg u hu' v hv', jd u hu' v hv']
  have s2 : SameCounts ((List.range R).map (fun i => d i ++ f i)) (F.zip D) := by
    rw [hF, hD, zip_range_map]
    refine sameCounts_map _ _ _ fun u hu v hv => ?_
    have hu' := List.mem_range.1 hu
    have hv' := List.mem_range.1 hv
    rw [append_eq_iff (by simp [dl]), Prod.mk.injEq, jf u hu' v hv', jd u hu' v hv']; tauto
  have s1 : SameCounts ((List.range R).map (fun i => g i ++ d i)) (G.zip D) := by
    rw [hG, hD, zip_range_map]
    refine sameCounts_map _ _ _ fun u hu v hv => ?_
    have hu' := List.mem_range.1 hu
    have hv' := List.mem_range.1 hv
    rw [append_eq_iff (by simp [gl]), Prod.mk.injEq, jg u hu' v hv', jd u hu' v hv']
  have s0 : SameCounts ((List.range R).map d) D := by
    rw [hD]
    exact sameCounts_map _ _ _ fun u hu v hv => jd u (List.mem_range.1 hu) v (List.mem_range.1 hv)
  constructor
  · intro hdef
    rw [e, k1 ((defined_congr sJ m).2 hdef), value_congr s2, value_congr s1, value_congr sJ, value_congr s0]
  · intro hdef
    rw [e, k2 (fun h' => hdef ((defined_congr sJ m).1 h'))]

example := C72_bias_te .zhang .zhang .zhang [[5, 1], [7, 1], [5, 2], [7, 1], [7, 2]] [[0], [0], [1], [1], [0]] 1 2 1 (by decide)
  (by decide) (by decide) (by decide) rfl 2 1 ⟨by decide, by decide⟩ ⟨by decide, by decide⟩ (.num 2) (by norm_num [Base.Valid])

/-- **C72** NSB transfer entropy of vector-valued series. -/
theorem C72_nsb_te (find : Int → Int → ℝ) (K : Option Nat) (hK : ∀ k, K = some k → 0 < k) (source dest : List (List Int)) (l k s : Nat)
    (hs : 0 < s) (hl : 0 < l) (hk : 0 < k) (hm : max k l * s < source.length) (hlen : source.length = dest.length)
    (wx wy : Nat) (hx : VecShape wx source) (hy : VecShape wy dest) (b : Base) (hb : b.Valid) :
    let F := futRows dest dest.length (max k l) s
    let G := histRows source dest.length (max k l) s l
    let D := histRows dest dest.length (max k l) s k
    let ok := Nsb.Defined (F.zip D) K ∧ Nsb.Defined (G.zip D) K ∧ Nsb.Defined (F.zip (G.zip D)) K ∧ Nsb.Defined D K
    (ok → nsbTEVec find (nsbArg K) source dest (teParams l k s) (some (.int 0)) none b = .ok ((Nsb.value (F.zip D) K +
      Nsb.value (G.zip D) K - Nsb.value (F.zip (G.zip D)) K - Nsb.value D K) / b.ln)) ∧
    (¬ ok → nsbTEVec find (nsbArg K) source dest (teParams l k s) (some (.int 0)) none b = .error .nonFinite) := by
  intro F G D ok
  have hm' : max k l * s < dest.length := hlen ▸ hm
  set R := numRows dest.length (max k l) s with hRdef
  have hR : 0 < R := numRows_pos hs hm'
  obtain ⟨f, fl, ef, jf⟩ := vb_fut dest hs rfl hm' hy
  obtain ⟨g, gl, eg, jg⟩ := vb_hist source (h := l) hs hlen hm' (le_max_right _ _) hx
  obtain ⟨d, dl, ed, jd⟩ := vb_hist dest (h := k) hs rfl hm' (le_max_left _ _) hy
  have hsl : teObservationsVec source dest (.int l) (.int k) (.int s) =
      .ok { src := (List.range R).map g, dest := (List.range R).map d, fut := (List.range R).map f } := by
    rw [teObservationsVec_ok source dest l k s hs hl hk hm hlen lawful_none, srcSel_none, vb_range_congr ef, vb_range_congr eg,
      vb_range_congr ed]
    have : (List.range R).map (fun i => (histRow source (max k l) s l ((List.range R).getD i 0)).flatten) =
        (List.range R).map (fun i => (histRow source (max k l) s l i).flatten) :=
      List.map_congr_left fun i hi => by
        rw [List.getD_eq_getElem?_getD]; simp [List.mem_range.1 hi]
    rw [this]
  have hF : F = (List.range R).map (fun i => [dest.getD ((max k l + i) * s) default]) := rfl
  have hG : G = (List.range R).map (histRow source (max k l) s l) := rfl
  have hD : D = (List.range R).map (histRow dest (max k l) s k) := rfl
  have sJ : SameCounts ((List.range R).map (fun i => g i ++ d i ++ f i)) (F.zip (G.zip D)) := by
    rw [hF, hG, hD, zip_range_map, zip_range_map]
    refine sameCounts_map _ _ _ fun u hu v hv => ?_
    have hu' := List.mem_range.1 hu
    have hv' := List.mem_range.1 hv
    rw [append_eq_iff (by simp [gl, dl]), append_eq_iff (by simp [gl]), Prod.mk.injEq, Prod.mk.injEq, jf u hu' v hv',
      jg u hu' v hv', jd u hu' v hv']
    tauto
  have s2 : SameCounts ((List.range R).map (fun i => d i ++ f i)) (F.zip D) := by
    rw [hF, hD, zip_range_map]
    refine sameCounts_map _ _ _ fun u hu v hv => ?_
    have hu' := List.mem_range.1 hu
    have hv' := List.mem_range.1 hv
    rw [append_eq_iff (by simp [dl]), Prod.mk.injEq, jf u hu' v hv', jd u hu' v hv']; tauto
  have s1 : SameCounts ((List.range R).map (fun i => g i ++ d i)) (G.zip D) := by
    rw [hG, hD, zip_range_map]
    refine sameCounts_map _ _ _ fun u hu v hv => ?_
    have hu' := List.mem_range.1 hu
    have hv' := List.mem_range.1 hv
    rw [append_eq_iff (by simp [gl]), Prod.mk.injEq, jg u hu' v hv', jd u hu' v hv']
  have s0 : SameCounts ((List.range R).map d) D := by
    rw [hD]
    exact sameCounts_map _ _ _ fun u hu v hv => jd u (List.mem_range.1 hu) v (List.mem_range.1 hv)
  have key := nsb_spaces find hK hb hR _ _ _ _ s2 s1 sJ s0
  have e : nsbTEVec find (nsbArg K) source dest (teParams l k s) (some (.int 0)) none b = (do
        let a ← hConstruct (.arr2 ((List.range R).map (fun i => d i ++ f i)))
        let b' ← hConstruct (.arr2 ((List.range R).map (fun i => g i ++ d i)))
        let c' ← hConstruct (.arr2 ((List.range R).map (fun i => g i ++ d i ++ f i)))
        let d ← hConstruct (.arr2 ((List.range R).map d))
        combineH (nsbH find (K.map Int.ofNat) b) [a, b'] [c', d]) := by
    simp only [nsbTEVec, genericTEVec, teInit_zero hlen, nsbCheck_ok hK, teParams, hsl, teSpaces_ok R f g d, bind, Except.bind]
  rw [e]
  exact key

example (find : Int → Int → ℝ) := C72_nsb_te find none (by simp) [[5, 1], [7, 1], [5, 2], [7, 1], [7, 2]] [[0], [0], [1], [1], [0]] 1 2 1
  (by decide) (by decide) (by decide) (by decide) rfl 2 1 ⟨by decide, by decide⟩ ⟨by decide, by decide⟩ (.num 2) (by norm_num [Base.Valid])

/-- the spaces of the conditional transfer entropy of vector-valued series -/
theorem vb_cte (source dest cond : List (List Int)) (l k q s : Nat) (hs : 0 < s)
    (hl : 0 < l) (hk : 0 < k) (hq : 0 < q) (hm : max (max k l) q * s < source.length) (hlen : source.length = dest.length)
    (hlen2 : cond.length = dest.length) (wx wy wz : Nat) (hx : VecShape wx source) (hy : VecShape wy dest) (hz : VecShape wz cond) :
    let M := max (max k l) q
    let R := numRows dest.length M s
    let F := futRows dest dest.length M s
    let G := histRows source dest.length M s l
    let DZ := (histRows dest dest.length M s k).zip (histRows cond dest.length M s q)
    ∃ f g d z : Nat → List Int,
      cteObservationsVec source dest cond (.int l) (.int k) (.int q) (.int s) =
        .ok { src := (List.range R).map g, dest := (List.range R).map d, fut := (List.range R).map f,
              cond := some ((List.range R).map z) } ∧
      (∀ u v, g u ++ d u ++ f u ++ z u = g v ++ d v ++ f v ++ z v ↔ (f u, g u, d u, z u) = (f v, g v, d v, z v)) ∧
      SameCounts ((List.range R).map (fun i => d i ++ f i ++ z i)) (F.zip DZ) ∧
      SameCounts ((List.range R).map (fun i => g i ++ d i ++ z i)) (G.zip DZ) ∧
      SameCounts ((List.range R).map (fun i => g i ++ d i ++ f i ++ z i)) (F.zip (G.zip DZ)) ∧
      SameCounts ((List.range R).map (fun i => d i ++ z i)) DZ := by
  intro M R F G DZ
  have hm' : M * s < dest.length := hlen ▸ hm
  obtain ⟨f, fl, ef, jf⟩ := vb_fut dest hs rfl hm' hy
  obtain ⟨g, gl, eg, jg⟩ := vb_hist source (h := l) hs hlen hm' (le_trans (le_max_right _ _) (le_max_left _ _)) hx
  obtain ⟨d, dl, ed, jd⟩ := vb_hist dest (h := k) hs rfl hm' (le_trans (le_max_left _ _) (le_max_left _ _)) hy
  obtain ⟨z, zl, ez, jz⟩ := vb_hist cond (h := q) hs hlen2 hm' (le_max_right _ _) hz
  have hF : F = (List.range R).map (fun i => [dest.getD ((M + i) * s) default]) := rfl
  have hG : G = (List.range R).map (histRow source M s l) := rfl
  have hDZ : DZ = (List.range R).map (fun i => (histRow dest M s k i, histRow cond M s q i)) := zip_range_map R _ _
  have j2 : ∀ u v, g u ++ d u ++ f u ++ z u = g v ++ d v ++ f v ++ z v ↔
      (f u, g u, d u, z u) = (f v, g v, d v, z v) := by
    intro u v
    rw [append_eq_iff (by simp [gl, dl, fl]), append_eq_iff (by simp [gl, dl]), append_eq_iff (by simp [gl]), Prod.mk.injEq,
      Prod.mk.injEq, Prod.mk.injEq]
    tauto
  refine ⟨f, g, d, z, ?_, j2, ?_, ?_, ?_, ?_⟩
  · unfold cteObservationsVec
    rw [cteObservations_ok source dest cond l k q s hs hl hk hq hm hlen hlen2 lawful_none, srcSel_none, histRows, futRows, histRows]
    simp only [bind, Except.bind, pure, Except.pure, flatSlices, List.map_map, Option.map_some]
    rw [vb_range_congr ef, vb_range_congr eg, vb_range_congr ed, vb_range_congr ez]
    rfl
  · rw [hF, hDZ, zip_range_map]
    refine sameCounts_map _ _ _ fun u hu v hv => ?_
    have hu' := List.mem_range.1 hu
    have hv' := List.mem_range.1 hv
    rw [append_eq_iff (by simp [dl, fl]), append_eq_iff (by simp [dl]), Prod.mk.injEq, Prod.mk.injEq, jf u hu' v hv', jd u hu' v hv',
      jz u hu' v hv']; tauto
  · rw [hG, hDZ, zip_range_map]
    refine sameCounts_map _ _ _ fun u hu v hv => ?_
    have hu' := List.mem_range.1 hu
    have hv' := List.mem_range.1 hv
    rw [append_eq_iff (by simp [gl, dl]), append_eq_iff (by simp [gl]), Prod.mk.injEq, Prod.mk.injEq, jg u hu' v hv', jd u hu' v hv',
      jz u hu' v hv']; tauto
  · rw [hF, hG, hDZ, zip_range_map, zip_range_map]
    refine sameCounts_map _ _ _ fun u hu v hv => ?_
    have hu' := List.mem_range.1 hu
    have hv' := List.mem_range.1 hv
    rw [j2 u v]
    simp only [Prod.mk.injEq]
    rw [jf u hu' v hv', jg u hu' v hv', jd u hu' v hv', jz u hu' v hv']
  · rw [hDZ]
    refine sameCounts_map _ _ _ fun u hu v hv => ?_
    have hu' := List.mem_range.1 hu
    have hv' := List.mem_range.1 hv
    rw [append_eq_iff (by simp [dl]), Prod.mk.injEq, jd u hu' v hv', jz u hu' v hv']

/-- **C72** Bias-corrected conditional transfer entropy of vector-valued series. -/
theorem C72_bias_cte (c : BiasClass) (m : Method) (h : c.Means m) (source dest cond : List (List Int)) (l k q s : Nat) (hs : 0 < s)
    (hl : 0 < l) (hk : 0 < k) (hq : 0 < q) (hm : max (max k l) q * s < source.length) (hlen : source.length = dest.length)
    (hlen2 : cond.length = dest.length) (wx wy wz : Nat) (hx : VecShape wx source) (hy : VecShape wy dest) (hz : VecShape wz cond)
    (b : Base) (hb : b.Valid) :
    let M := max (max k l) q
    let F := futRows dest dest.length M s
    let G := histRows source dest.length M s l
    let DZ := (histRows dest dest.length M s k).zip (histRows cond dest.length M s q)
    (m.Defined (F.zip (G.zip DZ)) →
      biasCTEVec c source dest (some cond) (teParams l k s) (.int q) (some (.int 0)) none b =
      .ok ((m.value (F.zip DZ) + m.value (G.zip DZ) - m.value (F.zip (G.zip DZ)) - m.value DZ) / b.ln)) ∧
    (¬ m.Defined (F.zip (G.zip DZ)) →
      biasCTEVec c source dest (some cond) (teParams l k s) (.int q) (some (.int 0)) none b = .error .nonFinite) := by
  intro M F G DZ
  have hm' : M * s < dest.length := hlen ▸ hm
  set R := numRows dest.length M s with hRdef
  have hR : 0 < R := numRows_pos hs hm'
  obtain ⟨f, g, d, z, hsl, j2, s2, s1, sJ, s0⟩ := vb_cte source dest cond l k q s hs hl hk hq hm hlen hlen2 wx wy wz hx hy hz
  have hsl' : cteObservationsVec source dest cond (.int l) (.int k) (.int q) (.int s) =
        .ok { src := (List.range R).map g, dest := (List.range R).map d, fut := (List.range R).map f,
              cond := some ((List.range R).map z) } := hsl
  have e : biasCTEVec c source dest (some cond) (teParams l k s) (.int q) (some (.int 0)) none b = (do
        let a ← hConstruct (.arr2 ((List.range R).map (fun i => d i ++ f i ++ z i)))
        let b' ← hConstruct (.arr2 ((List.range R).map (fun i => g i ++ d i ++ z i)))
        let c' ← hConstruct (.arr2 ((List.range R).map (fun i => g i ++ d i ++ f i ++ z i)))
        let d ← hConstruct (.arr2 ((List.range R).map (fun i => d i ++ z i)))
        combineH (c.est b) [a, b'] [c', d]) := by
    simp only [biasCTEVec, genericCTEVec, cteInit_zero hlen hlen2, means_check h, teParams, hsl', cteSpaces_ok R f g d z, bind, Except.bind]
  obtain ⟨k1, k2⟩ := bias_spaces h hb hR (fun i => d i ++ f i ++ z i) (fun i => g i ++ d i ++ z i)
    (fun i => g i ++ d i ++ f i ++ z i) (fun i => d i ++ z i)
    (fun u v huv => by
      have := (j2 u v).1 huv; simp only [Prod.mk.injEq] at this; simp only [this.1, this.2.2])
    (fun u v huv => by
      have := (j2 u v).1 huv; simp only [Prod.mk.injEq] at this; simp only [this.2.1, this.2.2])
    (fun u v huv => by
      have := (j2 u v).1 huv; simp only [Prod.mk.injEq] at this; simp only [this.2.2])
  constructor
  · intro hdef
    rw [e, k1 ((defined_congr sJ m).2 hdef), value_congr s2, value_congr s1, value_congr sJ, value_congr s0]
  · intro hdef
    rw [e, k2 (fun h' => hdef ((defined_congr sJ m).1 h'))]

example := C72_bias_cte .chaoShen .chaoShen .chaoShen [[5, 1], [7, 1], [5, 2], [7, 1], [7, 2]] [[0], [0], [1], [1], [0]]
  [[1, 2], [1, 2], [1, 3], [2, 2], [2, 2]] 1 2 1 1 (by decide) (by decide) (by decide) (by decide) (by decide) rfl rfl 2 1 2
  ⟨by decide, by decide⟩ ⟨by decide, by decide⟩ ⟨by decide, by decide⟩ (.num 2) (by norm_num [Base.Valid])

/-- **C72** NSB conditional transfer entropy of vector-valued series. -/
theorem C72_nsb_cte (find : Int → Int → ℝ) (K : Option Nat) (hK : ∀ k, K = some k → 0 < k) (source dest cond : List (List Int))
    (l k q s : Nat) (hs : 0 < s)
    (hl : 0 < l) (hk : 0 < k) (hq : 0 < q) (hm : max (max k l) q * s < source.length) (hlen : source.length = dest.length)
    (hlen2 : cond.length = dest.length) (wx wy wz : Nat) (hx : VecShape wx source) (hy : VecShape wy dest) (hz : VecShape wz cond)
    (b : Base) (hb : b.Valid) :
    let M := max (max k l) q
    let F := futRows dest dest.length M s
    let G := histRows source dest.length M s l
    let DZ := (histRows dest dest.length M s k).zip (histRows cond dest.length M s q)
    let ok := Nsb.Defined (F.zip DZ) K ∧ Nsb.Defined (G.zip DZ) K ∧ Nsb.Defined (F.zip (G.zip DZ)) K ∧ Nsb.Defined DZ K
    (ok → nsbCTEVec find (nsbArg K) source dest (some cond) (teParams l k s) (.int q) (some (.int 0)) none b = .ok ((Nsb.value (F.zip DZ) K +
      Nsb.value (G.zip DZ) K - Nsb.value (F.zip (G.zip DZ)) K - Nsb.value DZ K) / b.ln)) ∧
    (¬ ok → nsbCTEVec find (nsbArg K) source dest (some cond) (teParams l k s) (.int q) (some (.int 0)) none b = .error .nonFinite) := by
  intro M F G DZ ok
  have hm' : M * s < dest.length := hlen ▸ hm
  set R := numRows dest.length M s with hRdef
  have hR : 0 < R := numRows_pos hs hm'
  obtain ⟨f, g, d, z, hsl, j2, s2, s1, sJ, s0⟩ := vb_cte source dest cond l k q s hs hl hk hq hm hlen hlen2 wx wy wz hx hy hz
  have hsl' : cteObservationsVec source dest cond (.int l) (.int k) (.int q) (.int s) =
        .ok { src := (List.range R).map g, dest := (List.range R).map d, fut := (List.range R).map f,
              cond := some ((List.range R).map z) } := hsl
  have key := nsb_spaces find hK hb hR _ _ _ _ s2 s1 sJ s0
  have e : nsbCTEVec find (nsbArg K) source dest (some cond) (teParams l k s) (.int q) (some (.int 0)) none b = (do
        let a ← hConstruct (.arr2 ((List.range R).map (fun i => d i ++ f i ++ z i)))
        let b' ← hConstruct (.arr2 ((List.range R).map (fun i => g i ++ d i ++ z i)))
        let c' ← hConstruct (.arr2 ((List.range R).map (fun i => g i ++ d i ++ f i ++ z i)))
        let d ← hConstruct (.arr2 ((List.range R).map (fun i => d i ++ z i)))
        combineH (nsbH find (K.map Int.ofNat) b) [a, b'] [c', d]) := by
    simp only [nsbCTEVec, genericCTEVec, cteInit_zero hlen hlen2, nsbCheck_ok hK, teParams, hsl', cteSpaces_ok R f g d z, bind, Except.bind]
  rw [e]
  exact key

example (find : Int → Int → ℝ) := C72_nsb_cte find (some 50) (by simp) [[5, 1], [7, 1], [5, 2], [7, 1], [7, 2]] [[0], [0], [1], [1], [0]]
  [[1, 2], [1, 2], [1, 3], [2, 2], [2, 2]] 1 2 1 1 (by decide) (by decide) (by decide) (by decide) (by decide) rfl rfl 2 1 2
  ⟨by decide, by decide⟩ ⟨by decide, by decide⟩ ⟨by decide, by decide⟩ (.num 2) (by norm_num [Base.Valid])

end Verif
