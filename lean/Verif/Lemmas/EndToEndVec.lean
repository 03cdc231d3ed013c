import Verif.Model.EndToEndVec
import Verif.Lemmas.VecTE
import Verif.Lemmas.BiasMIVec
import Verif.Props.VecTE3

/-! # Lemmas: one-dimensional arrays as series of one-component vectors -/

namespace Verif

theorem jitterVec_noise (W : World) (v : ℝ) (i : Nat) (xs : List ℝ) :
    jitterVec (W.noise2 v i) (xs.map (fun x => [x])) = (jitter1 (W.noise1 v i) xs).map (fun x => [x]) := by
  rw [← jitterVec_single]
  unfold World.noise1 World.noise2
  by_cases h : v = 0
  · rw [if_pos h, if_pos h]; rfl
  · rw [if_neg h, if_neg h]
    simp only [jitterVec, Option.map_some]
    apply List.ext_getElem?
    intro t
    simp only [List.getElem?_mapIdx, List.getElem?_map]
    cases xs[t]? <;> rfl

section
variable (W : World) (p : TEParams) (u o : Option PyArg) (b : Base) (v : ℝ)

theorem ksgTEVec_scalar (x y : List ℝ) (cfg : KsgCfg) :
    ksgTEVec (x.map (fun x => [x])) (y.map (fun x => [x])) p u o cfg (W.noise2 v 0) (W.noise2 v 1) b =
      ksgTE x y p u o cfg (W.noise1 v 0) (W.noise1 v 1) b := by
  unfold ksgTEVec ksgTEVecLocal ksgTE ksgTELocal
  simp only [teInit_map]
  cases teInit x y u o p.step with
  | error e => rfl
  | ok d => simp only [Except.map, bind, Except.bind, jitterVec_noise, teObservationsVec_single]

theorem expTEVec_scalar (val : Nat → ℝ → KnnParts → ℝ → Base → Except Exc ℝ) (x y : List ℝ) (k q : PyArg) :
    expTEVec val (x.map (fun x => [x])) (y.map (fun x => [x])) p u o k q (W.noise2 v 0) (W.noise2 v 1) b =
      expTE val x y p u o k q (W.noise1 v 0) (W.noise1 v 1) b := by
  unfold expTEVec expTE
  simp only [teInit_map]
  cases teInit x y u o p.step with
  | error e => rfl
  | ok d => simp only [Except.map, bind, Except.bind, jitterVec_noise, teObservationsVec_single]

theorem ksgCTEVec_scalar (x y z : List ℝ) (m : PyArg) (cfg : KsgCfg) :
    ksgCTEVec (x.map (fun x => [x])) (y.map (fun x => [x])) (some (z.map (fun x => [x]))) p m u o cfg (W.noise2 v 0) (W.noise2 v 1)
      (W.noise2 v 2) b = ksgCTE x y (some z) p m u o cfg (W.noise1 v 0) (W.noise1 v 1) (W.noise1 v 2) b := by
  have hz : some (z.map (fun x => [x])) = (some z).map (List.map (fun x => [x])) := rfl
  unfold ksgCTEVec ksgCTEVecLocal ksgCTE ksgCTELocal
  simp only [hz, cteInit_map]
  cases cteInit x y (some z) u o with
  | error e => rfl
  | ok d => simp only [Except.map, bind, Except.bind, jitterVec_noise, cteObservationsVec_single]

theorem expCTEVec_scalar (val : Nat → ℝ → KnnParts → ℝ → Base → Except Exc ℝ) (x y z : List ℝ) (m k q : PyArg) :
    expCTEVec val (x.map (fun x => [x])) (y.map (fun x => [x])) (some (z.map (fun x => [x]))) p m u o k q (W.noise2 v 0)
      (W.noise2 v 1) (W.noise2 v 2) b = expCTE val x y (some z) p m u o k q (W.noise1 v 0) (W.noise1 v 1) (W.noise1 v 2) b := by
  have hz : some (z.map (fun x => [x])) = (some z).map (List.map (fun x => [x])) := rfl
  unfold expCTEVec expCTE
  simp only [hz, cteInit_map]
  cases cteInit x y (some z) u o with
  | error e => rfl
  | ok d => simp only [Except.map, bind, Except.bind, jitterVec_noise, cteObservationsVec_single]

theorem kernelTEVec_scalar (x y : List ℝ) (cfg : KdeCfg) :
    kernelTEVec (x.map (fun x => [x])) (y.map (fun x => [x])) p u o cfg b = kernelTE x y p u o cfg b :=
  (C72_scalar_continuous x y none p (.int 1) u o b {} cfg ⟨1, 1, .inf⟩ none none none renyiVal (.int 1) (.int 1)).1

theorem kernelCTEVec_scalar (x y z : List ℝ) (m : PyArg) (cfg : KdeCfg) :
    kernelCTEVec (x.map (fun x => [x])) (y.map (fun x => [x])) (some (z.map (fun x => [x]))) p m u o cfg b =
      kernelCTE x y (some z) p m u o cfg b :=
  (C72_scalar_continuous x y (some z) p m u o b {} cfg ⟨1, 1, .inf⟩ none none none renyiVal (.int 1) (.int 1)).2.1

theorem genericTEVec_scalar (est : HEst) (x y : List Int) :
    genericTEVec est (x.map (fun x => [x])) (y.map (fun x => [x])) p u o = genericTE est x y p u o :=
  (C72_scalar_discrete x y p u o .e false {} est).2.2

theorem genericCTEVec_scalar (est : HEst) (x y z : List Int) (m : PyArg) :
    genericCTEVec est (x.map (fun x => [x])) (y.map (fun x => [x])) (some (z.map (fun x => [x]))) p m u o =
      genericCTE est x y (some z) p m u o :=
  (C72_scalar_cte [] [] none x y (some z) p m u o .e ⟨1, 1, .inf⟩ none none none renyiVal (.int 1) (.int 1) est).2.2

theorem biasTEVec_scalar (c : BiasClass) (x y : List Int) :
    biasTEVec c (x.map (fun x => [x])) (y.map (fun x => [x])) p u o b = biasTE c x y p u o b := by
  unfold biasTEVec biasTE
  simp only [genericTEVec_scalar, teInit_map]
  cases teInit x y u o p.step <;> rfl

theorem nsbTEVec_scalar (find : Int → Int → ℝ) (K : Option PyArg) (x y : List Int) :
    nsbTEVec find K (x.map (fun x => [x])) (y.map (fun x => [x])) p u o b = nsbTE find K x y p u o b := by
  unfold nsbTEVec nsbTE
  simp only [genericTEVec_scalar, teInit_map]
  cases teInit x y u o p.step <;> rfl

theorem biasCTEVec_scalar (c : BiasClass) (x y z : List Int) (m : PyArg) :
    biasCTEVec c (x.map (fun x => [x])) (y.map (fun x => [x])) (some (z.map (fun x => [x]))) p m u o b =
      biasCTE c x y (some z) p m u o b := by
  have hz : some (z.map (fun x => [x])) = (some z).map (List.map (fun x => [x])) := rfl
  unfold biasCTEVec biasCTE
  simp only [genericCTEVec_scalar]
  simp only [hz, cteInit_map]
  cases cteInit x y (some z) u o <;> rfl

theorem nsbCTEVec_scalar (find : Int → Int → ℝ) (K : Option PyArg) (x y z : List Int) (m : PyArg) :
    nsbCTEVec find K (x.map (fun x => [x])) (y.map (fun x => [x])) (some (z.map (fun x => [x]))) p m u o b =
      nsbCTE find K x y (some z) p m u o b := by
  have hz : some (z.map (fun x => [x])) = (some z).map (List.map (fun x => [x])) := rfl
  unfold nsbCTEVec nsbCTE
  simp only [genericCTEVec_scalar]
  simp only [hz, cteInit_map]
  cases cteInit x y (some z) u o <;> rfl

theorem discreteTEVec_scalar (x y : List Int) (mm : Bool) :
    discreteTEVec (x.map (fun x => [x])) (y.map (fun x => [x])) p u o b mm = discreteTE x y p u o b mm :=
  (C72_scalar_discrete x y p u o b mm {} (millerMadowH b)).1

theorem discreteCTEOf_scalar (x y z : List Int) (m : PyArg) (mm : Bool) :
    discreteCTEOf (x.map (fun x => [x])) (y.map (fun x => [x])) (.one z) p m u o b mm = discreteCTE x y (some z) p m u o b mm :=
  C72_scalar_discrete_cond x y (some z) p m u o b mm

end

/-! ## Conversions -/

theorem toIntRows_of_toInts {d : PyData} {x : List Int} (h : d.toInts = some x) : d.toIntRows = some (x.map (fun x => [x])) := by
  cases d <;> cases h; rfl

theorem toRows_of_toSeries {d : PyData} {x : List ℝ} (h : d.toSeries = some x) : d.toRows = some (x.map (fun x => [x])) := by
  cases d <;> cases h <;> rfl

theorem toCondSeries_of_toInts {d : PyData} {x : List Int} (h : d.toInts = some x) : d.toCondSeries = some (.one x) := by
  cases d <;> cases h; rfl

theorem toCondArg_of_toInts {d : PyData} {x : List Int} (h : d.toInts = some x) : d.toCondArg = some (.arr1 x) := by
  cases d <;> cases h; rfl

theorem pair_map {α β : Type} {e : Est} {c : PyData → Option α} {c' : PyData → Option β} (f : α → β)
    (h : ∀ d x, c d = some x → c' d = some (f x)) {r : α × α} (hr : e.pair c = some r) : e.pair c' = some (f r.1, f r.2) := by
  unfold Est.pair at hr ⊢
  split at hr
  · next x y hd =>
    simp only [bind, Option.bind] at hr ⊢
    cases hx : c x with
    | none => rw [hx] at hr; cases hr
    | some a =>
      cases hy : c y with
      | none => rw [hx, hy] at hr; cases hr
      | some b =>
        rw [hx, hy] at hr; cases hr
        rw [h x a hx, h y b hy]
  · cases hr

theorem pair_intRows {e : Est} {r : List Int × List Int} (hr : e.pair PyData.toInts = some r) :
    e.pair PyData.toIntRows = some (r.1.map (fun x => [x]), r.2.map (fun x => [x])) :=
  pair_map (fun x => x.map (fun x => [x])) (fun _ _ h => toIntRows_of_toInts h) hr

theorem pair_rows {e : Est} {r : List ℝ × List ℝ} (hr : e.pair PyData.toSeries = some r) :
    e.pair PyData.toRows = some (r.1.map (fun x => [x]), r.2.map (fun x => [x])) :=
  pair_map (fun x => x.map (fun x => [x])) (fun _ _ h => toRows_of_toSeries h) hr

/-- what is evaluated for one-dimensional series is evaluated alike as series of one-component vectors -/
theorem teVec_of_teVal (W : World) (e : Est) (r : Except Exc ℝ) (h : e.teVal W = some r) : e.teVec W = some r := by
  unfold Est.teVal at h
  unfold Est.teVec
  simp only [bind, Option.bind] at h ⊢
  cases hb : e.get "base" PyVal.toBase with
  | none => rw [hb] at h; cases h
  | some b =>
  cases hu : e.get "prop_time" PyVal.toOptArg with
  | none => rw [hb, hu] at h; cases h
  | some u =>
  cases ho : e.get "offset" PyVal.toOptArg with
  | none => rw [hb, hu, ho] at h; cases h
  | some o =>
  cases hp : e.te with
  | none => rw [hb, hu, ho, hp] at h; cases h
  | some p =>
  rw [hb, hu, ho, hp] at h
  simp only at h ⊢
  cases hi : e.pair PyData.toInts with
  | some d =>
    have hi' := pair_intRows hi
    cases hs : e.pair PyData.toSeries with
    | some s =>
      have hs' := pair_rows hs
      rw [hi, hs] at h
      rw [hi', hs']
      simp only [discreteTEVec_scalar, kernelTEVec_scalar, ksgTEVec_scalar, expTEVec_scalar, biasTEVec_scalar, nsbTEVec_scalar]
      exact h
    | none =>
      rw [hi, hs] at h
      rw [hi']
      simp only [discreteTEVec_scalar, biasTEVec_scalar, nsbTEVec_scalar]
      cases hf : e.cls.fam <;> rw [hf] at h <;> first | exact h | cases h
  | none =>
    cases hs : e.pair PyData.toSeries with
    | some s =>
      have hs' := pair_rows hs
      rw [hi, hs] at h
      rw [hs']
      simp only [kernelTEVec_scalar, ksgTEVec_scalar, expTEVec_scalar]
      cases hf : e.cls.fam <;> rw [hf] at h <;> first | exact h | cases h
    | none =>
      rw [hi, hs] at h
      cases hf : e.cls.fam <;> rw [hf] at h <;> cases h

theorem cteVec_of_cteVal (W : World) (e : Est) (r : Except Exc ℝ) (h : e.cteVal W = some r) : e.cteVec W = some r := by
  unfold Est.cteVal at h
  unfold Est.cteVec
  simp (maxSteps := 2000000) only [Option.bind_eq_bind] at h ⊢
  cases hb : e.get "base" PyVal.toBase with
  | none => rw [hb] at h; cases h
  | some b =>
  cases hu : e.get "prop_time" PyVal.toOptArg with
  | none => rw [hb, hu] at h; cases h
  | some u =>
  cases ho : e.get "offset" PyVal.toOptArg with
  | none => rw [hb, hu, ho] at h; cases h
  | some o =>
  cases hp : e.te with
  | none => rw [hb, hu, ho, hp] at h; cases h
  | some p =>
  cases hm : e.get "cond_hist_len" PyVal.toArg with
  | none => rw [hb, hu, ho, hp, hm] at h; cases h
  | some m =>
  cases hz : e.cond with
  | none => rw [hb, hu, ho, hp, hm, hz] at h; cases h
  | some zd =>
  rw [hb, hu, ho, hp, hm, hz] at h
  simp only [Option.bind_some] at h ⊢
  have hint : ∀ (d : List Int × List Int) (z : List Int), e.pair PyData.toInts = some d → zd.toInts = some z →
      e.pair PyData.toIntRows = some (d.1.map (fun x => [x]), d.2.map (fun x => [x])) ∧
        zd.toIntRows = some (z.map (fun x => [x])) ∧ zd.toCondSeries = some (.one z) := fun d z h1 h2 =>
    ⟨pair_intRows h1, toIntRows_of_toInts h2, toCondSeries_of_toInts h2⟩
  have hreal : ∀ (d : List ℝ × List ℝ) (z : List ℝ), e.pair PyData.toSeries = some d → zd.toSeries = some z →
      e.pair PyData.toRows = some (d.1.map (fun x => [x]), d.2.map (fun x => [x])) ∧ zd.toRows = some (z.map (fun x => [x])) :=
    fun d z h1 h2 => ⟨pair_rows h1, toRows_of_toSeries h2⟩
  have ints : ∀ (f : List Int × List Int → List Int → Option (Except Exc ℝ)) (r : Except Exc ℝ),
      ((e.pair PyData.toInts).bind fun d => zd.toInts.bind fun z => f d z) = some r →
      ∃ d z, e.pair PyData.toInts = some d ∧ zd.toInts = some z ∧ f d z = some r := by
    intro f r h
    cases h1 : e.pair PyData.toInts with
    | none => rw [h1] at h; cases h
    | some d =>
      cases h2 : zd.toInts with
      | none => rw [h1, h2] at h; cases h
      | some z => rw [h1, h2] at h; exact ⟨d, z, rfl, rfl, h⟩
  have reals : ∀ (f : List ℝ × List ℝ → List ℝ → Option (Except Exc ℝ)) (r : Except Exc ℝ),
      ((e.pair PyData.toSeries).bind fun d => zd.toSeries.bind fun z => f d z) = some r →
      ∃ d z, e.pair PyData.toSeries = some d ∧ zd.toSeries = some z ∧ f d z = some r := by
    intro f r h
    cases h1 : e.pair PyData.toSeries with
    | none => rw [h1] at h; cases h
    | some d =>
      cases h2 : zd.toSeries with
      | none => rw [h1, h2] at h; cases h
      | some z => rw [h1, h2] at h; exact ⟨d, z, rfl, rfl, h⟩
  cases hf : e.cls.fam <;> rw [hf] at h <;> simp only at h ⊢ <;>
    first
    | (obtain ⟨d, z, h1, h2, h3⟩ := ints _ _ h
       obtain ⟨g1, g2, g3⟩ := hint d z h1 h2
       simp only [g1, g2, g3, Option.bind_some, discreteCTEOf_scalar, biasCTEVec_scalar, nsbCTEVec_scalar]
       exact h3)
    | (obtain ⟨d, z, h1, h2, h3⟩ := reals _ _ h
       obtain ⟨g1, g2⟩ := hreal d z h1 h2
       simp only [g1, g2, h1, h2, Option.bind_some, kernelCTEVec_scalar, ksgCTEVec_scalar, expCTEVec_scalar]
       exact h3)

/-- discrete mutual information: what is evaluated for 1-D arrays is evaluated alike -/
theorem miVec_of_mi (W : World) (e : Est) (r r' : Except Exc ℝ) (h : e.mi W = some r) (h' : e.miVec = some r') : r' = r := by
  unfold Est.mi at h
  unfold Est.miVec at h'
  simp (maxSteps := 2000000) only [Option.bind_eq_bind] at h h'
  cases hb : e.get "base" PyVal.toBase with
  | none => rw [hb] at h; cases h
  | some b =>
  cases ho : e.get "offset" PyVal.toOptInt with
  | none => rw [hb, ho] at h; cases h
  | some o =>
  rw [hb, ho] at h h'
  simp only [Option.bind_some] at h h'
  cases hx : e.data.mapM PyData.toInts with
  | none =>
    rw [hx] at h
    cases hf : e.cls.fam <;> rw [hf] at h h' <;> first | cases h | cases h'
  | some xs =>
    rw [hx] at h h'
    cases hf : e.cls.fam <;> rw [hf] at h h' <;> first | (cases h; cases h'; rfl) | cases h'

theorem cmiVec_of_cmi (W : World) (e : Est) (r r' : Except Exc ℝ) (h : e.cmi W = some r) (h' : e.cmiVec = some r') : r' = r := by
  unfold Est.cmi at h
  unfold Est.cmiVec at h'
  simp (maxSteps := 2000000) only [Option.bind_eq_bind] at h h'
  cases hb : e.get "base" PyVal.toBase with
  | none => rw [hb] at h; cases h
  | some b =>
  cases ho : e.get "offset" PyVal.toOptInt with
  | none => rw [hb, ho] at h; cases h
  | some o =>
  cases hz : e.cond with
  | none => rw [hb, ho, hz] at h; cases h
  | some zd =>
  rw [hb, ho, hz] at h h'
  simp only [Option.bind_some] at h h'
  cases hx : e.data.mapM PyData.toInts with
  | none =>
    rw [hx] at h h'
    cases hf : e.cls.fam <;> rw [hf] at h h' <;> first | cases h | cases h'
  | some xs =>
    rw [hx] at h h'
    cases hi : zd.toInts with
    | none => cases hf : e.cls.fam <;> rw [hf] at h h' <;> first | cases h' | (rw [hi] at h; cases h)
    | some z =>
      rw [hi] at h
      cases hf : e.cls.fam <;> rw [hf] at h h' <;> first | cases h' | (rw [toCondArg_of_toInts hi] at h'; cases h; cases h'; rfl)

theorem toIArr_of_toInts {d : PyData} {x : List Int} (h : d.toInts = some x) : d.toIArr = some (IArr.ofInts x) := by
  cases d <;> cases h; rfl

theorem toCondIArr_of_toInts {d : PyData} {x : List Int} (h : d.toInts = some x) : d.toCondIArr = some (.ok (IArr.ofInts x)) := by
  cases d <;> cases h; rfl

theorem mapM_toIArr {l : List PyData} {xs : List (List Int)} (h : l.mapM PyData.toInts = some xs) :
    l.mapM PyData.toIArr = some (xs.map IArr.ofInts) := by
  induction l generalizing xs with
  | nil => cases h; rfl
  | cons d l ih =>
    rw [List.mapM_cons] at h
    cases hd : d.toInts with
    | none => rw [hd] at h; cases h
    | some x =>
      cases hl : l.mapM PyData.toInts with
      | none => rw [hd, hl] at h; cases h
      | some ys =>
        rw [hd, hl] at h
        cases h
        rw [List.mapM_cons, toIArr_of_toInts hd, ih hl]; rfl

theorem ofInts_all (xs : List (List Int)) : (xs.map IArr.ofInts).all (fun x => !x.two) = true := by
  rw [List.all_map, List.all_eq_true]; intro x _; rfl

/-- bias-corrected mutual information: what is evaluated for 1-D arrays is evaluated alike -/
theorem miArr_of_mi (W : World) (e : Est) (r r' : Except Exc ℝ) (h : e.mi W = some r) (h' : e.miArr W = some r') : r' = r := by
  unfold Est.mi at h
  unfold Est.miArr at h'
  simp (maxSteps := 2000000) only [Option.bind_eq_bind] at h h'
  cases hb : e.get "base" PyVal.toBase with
  | none => rw [hb] at h; cases h
  | some b =>
  cases ho : e.get "offset" PyVal.toOptInt with
  | none => rw [hb, ho] at h; cases h
  | some o =>
  cases hn : e.get "normalize" PyVal.toBool with
  | none => rw [hb, ho, hn] at h'; cases h'
  | some nm =>
  rw [hb, ho, hn] at h h'
  simp only [Option.bind_some] at h h'
  cases hx : e.data.mapM PyData.toInts with
  | none =>
    rw [hx] at h
    cases hd : e.data.mapM PyData.toIArr with
    | none => rw [hd] at h'; cases h'
    | some ys =>
      rw [hd] at h'
      simp only [Option.bind_some] at h'
      split at h'
      · cases h'
      · cases hf : e.cls.fam <;> rw [hf] at h h' <;> first | cases h | (simp only [Est.bclass, hf] at h'; cases h')
  | some xs =>
    rw [mapM_toIArr hx] at h'
    rw [hx] at h
    simp only [Option.bind_some, ofInts_all, Bool.and_true] at h h'
    cases nm with
    | true => cases h'
    | false =>
      simp only [Bool.false_eq_true, if_false] at h h'
      cases hf : e.cls.fam <;> rw [hf] at h h' <;> simp only at h h' <;>
        first
        | (simp only [Est.bclass, hf] at h'; cases h'; done)
        | (cases hK : e.get "K" PyVal.toOptArg with
           | none => rw [hK] at h; cases h
           | some K => rw [hK] at h h'; cases h; cases h'; exact nsbMIArr_one _ _ _ _ _)
        | (cases hc : e.bclass with
           | none => rw [hc] at h; cases h
           | some c => rw [hc] at h h'; cases h; cases h'; exact biasMIArr_one _ _ _ _)

theorem cmiArr_of_cmi (W : World) (e : Est) (r r' : Except Exc ℝ) (h : e.cmi W = some r) (h' : e.cmiArr W = some r') : r' = r := by
  unfold Est.cmi at h
  unfold Est.cmiArr at h'
  simp (maxSteps := 2000000) only [Option.bind_eq_bind] at h h'
  cases hb : e.get "base" PyVal.toBase with
  | none => rw [hb] at h; cases h
  | some b =>
  cases ho : e.get "offset" PyVal.toOptInt with
  | none => rw [hb, ho] at h; cases h
  | some o =>
  cases hn : e.get "normalize" PyVal.toBool with
  | none => rw [hb, ho, hn] at h'; cases h'
  | some nm =>
  cases hz : e.cond with
  | none => rw [hb, ho, hz] at h; cases h
  | some zd =>
  rw [hb, ho, hn, hz] at h'
  rw [hb, ho, hz, hn] at h
  simp only [Option.bind_some] at h h'
  cases hd : e.data.mapM PyData.toIArr with
  | none => rw [hd] at h'; cases h'
  | some ys =>
  cases hcz : zd.toCondIArr with
  | none => rw [hd, hcz] at h'; cases h'
  | some cz =>
  rw [hd, hcz] at h'
  simp only [Option.bind_some] at h'
  cases hx : e.data.mapM PyData.toInts with
  | none =>
    rw [hx] at h
    cases hf : e.cls.fam <;> rw [hf] at h h' <;> first | cases h | (simp only [Est.bclass, hf] at h'; cases h')
  | some xs =>
    cases hi : zd.toInts with
    | none =>
      rw [hx, hi] at h
      cases hf : e.cls.fam <;> rw [hf] at h h' <;> first | cases h | (simp only [Est.bclass, hf] at h'; cases h')
    | some z =>
      have e1 := mapM_toIArr hx
      rw [hd] at e1
      cases e1
      have e2 := toCondIArr_of_toInts hi
      rw [hcz] at e2
      cases e2
      rw [hx, hi] at h
      have e3 : (xs.map IArr.ofInts ++ [IArr.ofInts z]).all (fun x => !x.two) = true := by
        have := ofInts_all (xs ++ [z]); simpa using this
      simp only [Option.bind_some, e3, Bool.and_true] at h h'
      cases nm with
      | true =>
        cases hf : e.cls.fam <;> rw [hf] at h h' <;> simp only at h h' <;>
          first
          | (simp only [Est.bclass, hf] at h'; cases h'; done)
          | (cases hK : e.get "K" PyVal.toOptArg with
             | none => rw [hK] at h; cases h
             | some K => rw [hK] at h; cases h)
          | (cases hc : e.bclass with
             | none => rw [hc] at h; cases h
             | some c => rw [hc] at h; cases h)
      | false =>
        simp only [Bool.false_eq_true, if_false] at h h'
        cases hf : e.cls.fam <;> rw [hf] at h h' <;> simp only at h h' <;>
          first
          | (simp only [Est.bclass, hf] at h'; cases h'; done)
          | (cases hK : e.get "K" PyVal.toOptArg with
             | none => rw [hK] at h; cases h
             | some K => rw [hK] at h h'; cases h; cases h'; exact nsbCMIArr_one _ _ _ _ _ _)
          | (cases hc : e.bclass with
             | none => rw [hc] at h; cases h
             | some c => rw [hc] at h h'; cases h; cases h'; exact biasCMIArr_one _ _ _ _ _)

/-- the value of an estimator object for two-dimensional arrays and joint conditions -/
theorem result_vec {W : World} {e : Est} {r : Except Exc ℝ} (h : e.vecVal W = some r) : Est.result W.vec e = r := by
  have ho : W.vec.other e = r := by simp only [World.vec, h, Option.getD_some]
  unfold Est.result
  rw [ho]
  unfold Est.vecVal at h
  cases hk : e.cls.kind <;> rw [hk] at h <;> simp only at h ⊢
  · cases h
  · cases hv : e.mi W.vec with
    | none => rfl
    | some r' =>
      rw [Option.getD_some]
      split at h
      · next q hq => cases h; exact (miVec_of_mi _ _ _ _ hv hq).symm
      · exact (miArr_of_mi W e _ _ hv h).symm
  · cases hv : e.cmi W.vec with
    | none => rfl
    | some r' =>
      rw [Option.getD_some]
      split at h
      · next q hq => cases h; exact (cmiVec_of_cmi _ _ _ _ hv hq).symm
      · exact (cmiArr_of_cmi W e _ _ hv h).symm
  · cases hv : e.teVal W.vec with
    | none => rfl
    | some r' =>
      have := teVec_of_teVal W e r' hv
      rw [h] at this; cases this; rfl
  · cases hv : e.cteVal W.vec with
    | none => rfl
    | some r' =>
      have := cteVec_of_cteVal W e r' hv
      rw [h] at this; cases this; rfl

/-- nothing changes for calls that were evaluated without two-dimensional arrays -/
theorem result_vec_of (W : World) (e : Est) (r : Except Exc ℝ)
    (h : (match e.cls.kind with | .h => e.entropy W | .mi => e.mi W | .cmi => e.cmi W | .te => e.teVal W | .cte => e.cteVal W) = some r) :
    Est.result W.vec e = Est.result W e := by
  unfold Est.result
  cases hk : e.cls.kind <;> rw [hk] at h <;> simp only at h ⊢ <;> rw [h, Option.getD_some]
  · rw [show e.entropy W.vec = some r from h, Option.getD_some]
  · rw [show e.mi W.vec = some r from h, Option.getD_some]
  · rw [show e.cmi W.vec = some r from h, Option.getD_some]
  · rw [show e.teVal W.vec = some r from h, Option.getD_some]
  · rw [show e.cteVal W.vec = some r from h, Option.getD_some]

end Verif
