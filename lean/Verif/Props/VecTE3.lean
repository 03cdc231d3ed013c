import Verif.Props.VecTE2
import Verif.Props.Offset

/-!
# C72 continued: conditional transfer entropy of vector-valued series with Rényi, Tsallis and the bias-corrected approaches
-/

namespace Verif

open Spec

/-- **C72** One-column arrays give what the one-dimensional series give, for the conditional transfer entropy of Rényi, Tsallis, KSG
and every approach that combines entropies. -/
theorem C72_scalar_cte (source dest : List ℝ) (cond : Option (List ℝ)) (xi yi : List Int) (zi : Option (List Int)) (p : TEParams)
    (c : PyArg) (pt o : Option PyArg) (b : Base) (ksg : KsgCfg) (eX eY eZ : Option (Nat → ℝ))
    (val : Nat → ℝ → KnnParts → ℝ → Base → Except Exc ℝ) (k order : PyArg) (est : HEst) :
    expCTEVec val (source.map (fun x => [x])) (dest.map (fun x => [x])) (cond.map (List.map (fun x => [x]))) p c pt o k order
      (eX.map (fun e t _ => e t)) (eY.map (fun e t _ => e t)) (eZ.map (fun e t _ => e t)) b =
      expCTE val source dest cond p c pt o k order eX eY eZ b ∧
    ksgCTEVec (source.map (fun x => [x])) (dest.map (fun x => [x])) (cond.map (List.map (fun x => [x]))) p c pt o ksg
      (eX.map (fun e t _ => e t)) (eY.map (fun e t _ => e t)) (eZ.map (fun e t _ => e t)) b =
      ksgCTE source dest cond p c pt o ksg eX eY eZ b ∧
    genericCTEVec est (xi.map (fun x => [x])) (yi.map (fun x => [x])) (zi.map (List.map (fun x => [x]))) p c pt o =
      genericCTE est xi yi zi p c pt o := by
  unfold expCTEVec expCTE ksgCTEVec ksgCTEVecLocal ksgCTE ksgCTELocal genericCTEVec genericCTE
  simp only [cteInit_map]
  refine ⟨?_, ?_, ?_⟩
  · cases cteInit source dest cond pt o with
    | error e => rfl
    | ok d => simp only [Except.map, bind, Except.bind, jitterVec_single, cteObservationsVec_single]
  · cases cteInit source dest cond pt o with
    | error e => rfl
    | ok d => simp only [Except.map, bind, Except.bind, jitterVec_single, cteObservationsVec_single]
  · cases cteInit xi yi zi pt o with
    | error e => rfl
    | ok d => simp only [Except.map, bind, Except.bind, cteObservationsVec_single]

/-- **C72** Rényi and Tsallis conditional transfer entropy of vector-valued series: the conditional mutual information estimate of the
destination vectors and the flattened source histories given the flattened destination histories with the flattened condition
histories appended — the same value or the same error whatever the order and `k`. -/
theorem C72_exp_cte_is_cmi (val : ExpVal) (source dest cond : List (List ℝ)) (l k c s : Nat) (hs : 0 < s) (hl : 0 < l) (hk : 0 < k)
    (hc : 0 < c) (hm : max (max k l) c * s < source.length) (hlen : source.length = dest.length) (hlen2 : cond.length = dest.length)
    (m n o : Nat) (hx : VecShape m source) (hy : VecShape n dest) (hz : VecShape o cond) (kn order : PyArg) (b : Base) :
    let M := max (max k l) c
    let R := numRows dest.length M s
    let F := vecFut dest M s R
    let G := flatHist source M s l (List.range R)
    let DZ := List.zipWith (· ++ ·) (flatHist dest M s k (List.range R)) (flatHist cond M s c (List.range R))
    CMISamples [.two ⟨n, F⟩, .two ⟨l * m, G⟩] (.two ⟨k * n + c * o, DZ⟩) R ∧
    expCTEVec val source dest (some cond) (teParams l k s) (.int c) (some (.int 0)) none kn order none none none b =
      expCMI val [.two ⟨n, F⟩, .two ⟨l * m, G⟩] (some (.two ⟨k * n + c * o, DZ⟩)) (some 0) false kn order noNoise none b := by
  intro M R F G DZ
  have hR0 : 0 < R := numRows_pos hs (by rw [← hlen]; exact hm)
  obtain ⟨f, g, d, z, hf, hg, hd, hz', ef, eg, ed, ho⟩ := vec_cte_rows source dest cond l k c s hs hl hk hc hm hlen hlen2 hx hy hz
  have hlm : 0 < l * m := Nat.mul_pos hl hx.1
  have hkn' : 0 < k * n := Nat.mul_pos hk hy.1
  have hdz : ∀ i, (d i ++ z i).length = k * n + c * o := by intro i; simp [hd, hz']
  have H : CMISamples [.two ⟨n, F⟩, .two ⟨l * m, G⟩] (.two ⟨k * n + c * o, DZ⟩) R := by
    rw [show F = _ from ef.symm, show G = _ from eg.symm, show DZ = _ from ed.symm]
    refine ⟨⟨by simp, hR0, ?_⟩, rows_sample (by omega) hdz⟩
    intro v hv
    simp only [List.mem_cons, List.not_mem_nil, or_false] at hv
    rcases hv with rfl | rfl
    · exact rows_sample hy.1 hf
    · exact rows_sample hlm hg
  refine ⟨H, ?_⟩
  rw [expCMI_eq H val kn order b (.inl rfl)]
  have key := entropyTE_is_cmi (R := R) (q := n) (l := l * m) (k := k * n) (c := c * o) hR0 hy.1 hlm hkn'
    (f := f) (g := g) (d := d) (z := z) hf hg hd hz' val kn order b
  rw [show F = _ from ef.symm, show G = _ from eg.symm, show DZ = _ from ed.symm, ← key]
  cases hpp : expParams kn order with
  | error e =>
    have : order.posNumber = none ∨ kn.posInt = false := by
      unfold expParams at hpp
      cases ho : order.posNumber with
      | none => exact .inl rfl
      | some q => cases hk : kn.posInt with
        | false => exact .inr rfl
        | true => simp [ho, hk] at hpp
    have h2 := expParams_error this
    rw [h2] at hpp
    cases hpp
    rw [key]
    simp only [expCTEVec, cteInit_zero hlen hlen2, bind, Except.bind, h2, entropyCMI, List.mapM_cons, expInit_other this]
  | ok u =>
    simp only [expCTEVec, cteInit_zero hlen hlen2, bind, Except.bind, hpp, teParams, expStepCheck, Int.natCast_nonneg, if_true, jitterVec,
      ho, cteSpaces_ok]
    rfl

example := C72_exp_cte_is_cmi renyiVal [[1, 0], [0, 1], [1, 1], [0, 1 / 2]] [[2], [3], [2], [5]] [[1], [0], [0], [2]] 2 1 1 1 (by decide)
  (by decide) (by decide) (by decide) (by decide) rfl rfl 2 1 1 ⟨by decide, by simp⟩ ⟨by decide, by simp⟩ ⟨by decide, by simp⟩
  (.int 1) (.num 2) .e

/-- **C72** It exists whenever the order is below `k + 1` and `k` below the number of embedded rows. -/
theorem C72_exp_cte_finite (val : ExpVal) (hval : val = renyiVal ∨ val = tsallisVal) (source dest cond : List (List ℝ)) (l k c s : Nat)
    (hs : 0 < s) (hl : 0 < l) (hk : 0 < k) (hc : 0 < c) (hm : max (max k l) c * s < source.length)
    (hlen : source.length = dest.length) (hlen2 : cond.length = dest.length) (m n o : Nat)
    (hx : VecShape m source) (hy : VecShape n dest) (hz : VecShape o cond) (kn : Nat) (hkn : 0 < kn)
    (hR : kn < numRows dest.length (max (max k l) c) s) (order : PyArg) (q : ℝ) (ho : order.posNumber = some q)
    (hq : q < kn + 1) (b : Base) (hb : b.Valid) :
    ∃ v, expCTEVec val source dest (some cond) (teParams l k s) (.int c) (some (.int 0)) none (.int kn) order none none none b =
      .ok v := by
  obtain ⟨H, h⟩ := C72_exp_cte_is_cmi val source dest cond l k c s hs hl hk hc hm hlen hlen2 m n o hx hy hz (.int kn) order b
  rw [h]
  exact C65_cmi_finite val hval _ _ _ H kn hkn hR order q ho hq b hb

example := C72_exp_cte_finite tsallisVal (.inr rfl) [[1, 0], [0, 1], [1, 1], [0, 1 / 2]] [[2], [3], [2], [5]] [[1], [0], [0], [2]] 2 1 1 1
  (by decide) (by decide) (by decide) (by decide) (by decide) rfl rfl 2 1 1 ⟨by decide, by simp⟩ ⟨by decide, by simp⟩
  ⟨by decide, by simp⟩ 1 (by decide) (by decide) (.num (3 / 2)) (3 / 2) (by norm_num [PyArg.posNumber]) (by norm_num) (.num 2)
  (by norm_num [Base.Valid])

/-- **C72** The observation noise is added to the three arrays before anything else. -/
theorem C72_cte_noise (source dest cond : List (List ℝ)) (hlen : source.length = dest.length) (hlen2 : cond.length = dest.length)
    (p : TEParams) (c : PyArg) (nx ny nz : Option (Nat → Nat → ℝ)) (val : ExpVal) (kn order : PyArg) (b : Base) :
    expCTEVec val source dest (some cond) p c (some (.int 0)) none kn order nx ny nz b =
      expCTEVec val (jitterVec nx source) (jitterVec ny dest) (some (jitterVec nz cond)) p c (some (.int 0)) none kn order
        none none none b := by
  have hj : ∀ (e : Option (Nat → Nat → ℝ)) (xs : List (List ℝ)), (jitterVec e xs).length = xs.length := by
    intro e xs; cases e <;> simp [jitterVec]
  unfold expCTEVec
  rw [cteInit_zero hlen hlen2, cteInit_zero (by rw [hj, hj, hlen]) (by rw [hj, hj, hlen2])]
  rfl

example := C72_cte_noise [[0, 1], [1, 1], [3, 2]] [[1], [0], [2]] [[2], [2], [1]] rfl rfl (teParams 1 1 1) (.int 1) none none
  (some (fun i j => i + j)) renyiVal (.int 1) (.num 2) .e

/-- **C72** A conditional transfer entropy of vector-valued series from any entropy-combining approach (bias-corrected entropies) is
`H(future, past) + H(source, past) − H(source, past, future) − H(past)` of the flattened rows, `past` being the destination's
histories with the condition's appended. -/
theorem C72_generic_cte_is_entropy_combination (est : HEst) (h : est.Consistent ∨ est.GlobalOnly)
    (source dest cond : List (List Int)) (l k c s : Nat) (hs : 0 < s) (hl : 0 < l) (hk : 0 < k) (hc : 0 < c)
    (hm : max (max k l) c * s < source.length) (hlen : source.length = dest.length) (hlen2 : cond.length = dest.length) :
    let M := max (max k l) c
    let R := numRows dest.length M s
    let F : Nat → List Int := fun i => dest.getD ((M + i) * s) []
    let G : Nat → List Int := fun i => (List.range l).flatMap (fun j => source.getD ((M + i - l + j) * s) [])
    let D : Nat → List Int := fun i => (List.range k).flatMap (fun j => dest.getD ((M + i - k + j) * s) [])
    let Z : Nat → List Int := fun i => (List.range c).flatMap (fun j => cond.getD ((M + i - c + j) * s) [])
    ∃ h2 h1 hj hd,
      est.entropy (.arr2 ((List.range R).map (fun i => D i ++ F i ++ Z i))) = .ok h2 ∧
      est.entropy (.arr2 ((List.range R).map (fun i => G i ++ D i ++ Z i))) = .ok h1 ∧
      est.entropy (.arr2 ((List.range R).map (fun i => G i ++ D i ++ F i ++ Z i))) = .ok hj ∧
      est.entropy (.arr2 ((List.range R).map (fun i => D i ++ Z i))) = .ok hd ∧
      genericCTEVec est source dest (some cond) (teParams l k s) (.int c) (some (.int 0)) none = .ok (h2 + h1 - hj - hd) := by
  intro M R F G D Z
  have hm' : max (max k l) c * s < dest.length := hlen ▸ hm
  have hsl : cteObservationsVec source dest cond (.int l) (.int k) (.int c) (.int s) =
      .ok { src := (List.range R).map G, dest := (List.range R).map D, fut := (List.range R).map F, cond := some ((List.range R).map Z) } := by
    unfold cteObservationsVec
    rw [cteObservations_ok source dest cond l k c s hs hl hk hc hm hlen hlen2 lawful_none, srcSel_none, histRows, futRows, histRows]
    simp only [bind, Except.bind, pure, Except.pure, flatSlices, List.map_map, Option.map_some]
    have : ∀ i, F i = [dest.getD ((M + i) * s) default].flatten := by
      intro i; simp only [List.flatten_cons, List.flatten_nil, List.append_nil]; rfl
    simp only [funext this]
    rfl
  have hsp := cteSpaces_ok R F G D Z
  obtain ⟨h2, h1, hj, hd, e1, e2, e3, e4, e5⟩ := generic_spaces h R (numRows_pos hs hm')
    (fun i => D i ++ F i ++ Z i) (fun i => G i ++ D i ++ Z i) (fun i => G i ++ D i ++ F i ++ Z i) (fun i => D i ++ Z i)
  refine ⟨h2, h1, hj, hd, e1, e2, e3, e4, ?_⟩
  rw [← e5]
  simp only [genericCTEVec, cteInit_zero hlen hlen2, teParams, hsl, hsp, bind, Except.bind]

example := C72_generic_cte_is_entropy_combination (pluginH (.num 2)) (.inl (pluginH_consistent (by norm_num [Base.Valid])))
  [[1, 0], [0, 0], [1, 1], [1, 0], [0, 2]] [[0], [1], [0], [1], [1]] [[0], [0], [1], [1], [0]] 2 1 1 1 (by decide) (by decide)
  (by decide) (by decide) (by decide) rfl rfl

end Verif
