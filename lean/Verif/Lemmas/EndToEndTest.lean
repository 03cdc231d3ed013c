import Verif.Spec.EndToEndTest
import Verif.Props.EndToEndLocal
import Verif.Props.StatTest3
import Verif.Lemmas.EndToEndBase

/-!
# Statistical tests end to end: the objects
-/

namespace Verif

open Spec

theorem bind_pure_lam {α β : Type} (x : Except Exc α) (f : α → Except Exc β) : (x >>= fun a => f a) = x >>= f := rfl

theorem e2et_bind_assoc {α β γ : Type} (x : Except Exc α) (f : α → Except Exc β) (h : β → Except Exc γ) :
    ((x >>= f) >>= h) = x >>= fun a => f a >>= h := by cases x <;> rfl

theorem e2et_pure_bind {α β : Type} (a : α) (f : α → Except Exc β) : ((pure a : Except Exc α) >>= f) = f a := rfl

/-- the value of an object: `_calculate` on the data of the constructor -/
noncomputable def MIObj.value (W : World) : MIObj → Except Exc ℝ
  | .ints d f => f W d
  | .series d f => f W d
  | .arrs d f => f W d

theorem opt_map_bind {τ β γ : Type} {ψ : β → γ} {a : Option τ} {f : τ → Option γ} {g : τ → Option β}
    (h : ∀ x, f x = (g x).map ψ) : (a >>= f) = (a >>= g).map ψ := by
  cases a with
  | none => rfl
  | some x => exact h x

theorem split_biasMI (W : World) (c : BiasClass) (xs : List (List Int)) (o : Option Int) (b : Base) :
    biasMI c xs o b = (do
      let d ← miInit xs o
      c.check
      pure (MIObj.ints d fun _ d => miFromEntropies (c.est b) d)) >>= MIObj.value W := by
  unfold biasMI genericMI
  cases hi : miInit xs o with
  | error => rfl
  | ok d => cases c.check <;> rfl

theorem split_nsbMI (W : World) (K : Option PyArg) (xs : List (List Int)) (o : Option Int) (b : Base) :
    nsbMI W.find K xs o b = (do
      let d ← miInit xs o
      let k ← nsbCheck K
      pure (MIObj.ints d fun W d => miFromEntropies (nsbH W.find k b) d)) >>= MIObj.value W := by
  unfold nsbMI genericMI
  cases hi : miInit xs o with
  | error => rfl
  | ok d => cases nsbCheck K <;> rfl

theorem split_ordMI (W : World) (xs : List (List ℝ)) (p : OrdParams) (o : Option Int) (b : Base) :
    ordMI W.quick xs p o b = (do
      let d ← miInit xs o
      let s ← ordMIInit W.quick xs p o
      pure (MIObj.series d fun _ _ => ordMICalculate s b)) >>= MIObj.value W := by
  unfold ordMI
  cases hs : ordMIInit W.quick xs p o with
  | error x =>
    cases hi : miInit xs o with
    | error => unfold ordMIInit at hs; rw [hi] at hs; cases hs; rfl
    | ok d => rfl
  | ok s =>
    cases hi : miInit xs o with
    | error => unfold ordMIInit at hs; rw [hi] at hs; cases hs
    | ok d => rfl

/-- `.result()` of a mutual-information estimator: constructor, then `_calculate` -/
theorem split_mi_value (W : World) (e : Est) : e.mi W = (e.miObj W).map (fun r => r >>= MIObj.value W) := by
  obtain ⟨⟨kind, fam⟩, data, cond, par⟩ := e
  unfold Est.mi Est.miObj
  refine opt_map_bind fun b => opt_map_bind fun o => ?_
  cases fam
  all_goals
    repeat' first
      | refine opt_map_bind fun _ => ?_
      | refine opt_resc_some ?_
      | (split_ifs <;> first | rfl | skip)
  all_goals first
    | exact split_biasMI _ _ _ _ _
    | exact split_nsbMI _ _ _ _ _
    | exact split_ordMI _ _ _ _ _
    | skip
  case discrete => unfold discreteMI; simp only; cases miInit _ o <;> rfl
  case millerMadow => unfold discreteMI; simp only; cases miInit _ o <;> rfl
  case kernel => unfold kernelMI kernelMILocal; cases kmiInit _ o _ <;> rfl
  case metric =>
    unfold ksgMI ksgMILocal
    cases kmiInit _ o _ with
    | error => rfl
    | ok d => rename_i cfg _; cases ksgIdCheck cfg <;> rfl
  all_goals
    unfold expMI
    cases kmiInit _ o _ with
    | error => rfl
    | ok d => rename_i k q _; cases expParams k q <;> rfl

theorem split_biasCMI (W : World) (c : BiasClass) (xs : List (List Int)) (z : List Int) (o : Option Int) (b : Base) :
    biasCMI c xs z o b = (do
      let dz ← cmiInit xs (some z) o
      c.check
      pure (MIObj.ints dz.1 fun _ d => cmiFromEntropies (c.est b) d dz.2)) >>= MIObj.value W := by
  unfold biasCMI genericCMI
  cases hi : cmiInit xs (some z) o with
  | error => rfl
  | ok d => cases c.check <;> rfl

theorem split_nsbCMI (W : World) (K : Option PyArg) (xs : List (List Int)) (z : List Int) (o : Option Int) (b : Base) :
    nsbCMI W.find K xs z o b = (do
      let dz ← cmiInit xs (some z) o
      let k ← nsbCheck K
      pure (MIObj.ints dz.1 fun W d => cmiFromEntropies (nsbH W.find k b) d dz.2)) >>= MIObj.value W := by
  unfold nsbCMI genericCMI
  cases hi : cmiInit xs (some z) o with
  | error => rfl
  | ok d => cases nsbCheck K <;> rfl

theorem split_ordCMI (W : World) (xs : List (List ℝ)) (z : List ℝ) (p : OrdParams) (o : Option Int) (b : Base) :
    ordCMI W.quick xs (some z) p o b = (do
      let dz ← cmiInit xs (some z) o
      let s ← ordCMIInit W.quick xs (some z) p o
      pure (MIObj.series dz.1 fun _ _ => ordCMICalculate s b)) >>= MIObj.value W := by
  unfold ordCMI
  cases hs : ordCMIInit W.quick xs (some z) p o with
  | error x =>
    cases hi : cmiInit xs (some z) o with
    | error => unfold ordCMIInit at hs; rw [hi] at hs; cases hs; rfl
    | ok d => rfl
  | ok s =>
    cases hi : cmiInit xs (some z) o with
    | error => unfold ordCMIInit at hs; rw [hi] at hs; cases hs
    | ok d => rfl

theorem normVar_len {v w : KVar} (h : normVar v = .ok w) : w.len = v.len := by
  cases v with
  | two a => cases h
  | one xs =>
    cases xs with
    | nil => cases h
    | cons x r =>
      simp only [normVar, normalize01] at h
      split_ifs at h
      · cases h
      · cases h; simp [KVar.len]

theorem mapM_lens {xs d : List KVar} (h : xs.mapM normVar = .ok d) : d.map KVar.len = xs.map KVar.len := by
  induction xs generalizing d with
  | nil => cases h; rfl
  | cons x xs ih =>
    rw [List.mapM_cons] at h
    cases hx : normVar x with
    | error => rw [hx] at h; cases h
    | ok w =>
      rw [hx] at h
      cases hl : xs.mapM normVar with
      | error => simp only [bind, Except.bind, hl] at h; cases h
      | ok ws =>
        simp only [bind, Except.bind, hl] at h
        cases h
        simp only [List.map_cons, normVar_len hx, ih hl]

theorem kcmiInit_lens {xs : List KVar} {z : KVar} {o : Option Int} {nm : Bool} {dz : List KVar × KVar}
    (h : kcmiInit xs (some z) o nm = .ok dz) : dz.1.map KVar.len = xs.map KVar.len := by
  unfold kcmiInit at h
  simp only at h
  by_cases ho : o = some 0 ∨ o = none
  · rw [if_neg (not_not.2 ho)] at h
    match xs, h with
    | [], h => cases h
    | [_], h => cases h
    | x :: y :: r, h =>
      simp only at h
      by_cases hl : x.len ≠ y.len ∨ x.len ≠ z.len
      · rw [if_pos hl] at h; cases h
      rw [if_neg hl] at h
      by_cases hn : nm = true
      · rw [if_pos hn] at h
        split_ifs at h
        cases hm : (x :: y :: r).mapM normVar with
        | error => rw [hm] at h; cases h
        | ok d =>
          rw [hm] at h
          cases hz : normVar z with
          | error => simp only [bind, Except.bind, hz] at h; cases h
          | ok w =>
            simp only [bind, Except.bind, hz] at h
            cases h
            exact mapM_lens hm
      · rw [if_neg hn] at h; cases h; rfl
  · rw [if_pos ho] at h; cases h

/-- `.result()` of a conditional mutual-information estimator: constructor, then `_calculate` -/
theorem split_cmi_value (W : World) (e : Est) : e.cmi W = (e.cmiObj W).map (fun r => r >>= MIObj.value W) := by
  obtain ⟨⟨kind, fam⟩, data, cond, par⟩ := e
  unfold Est.cmi Est.cmiObj
  refine opt_map_bind fun b => opt_map_bind fun o => opt_map_bind fun zd => ?_
  cases fam
  all_goals
    repeat' first
      | refine opt_map_bind fun _ => ?_
      | refine opt_resc_some ?_
      | (split_ifs <;> first | rfl | skip)
  all_goals first
    | exact split_biasCMI _ _ _ _ _ _
    | exact split_nsbCMI _ _ _ _ _ _
    | exact split_ordCMI _ _ _ _ _ _
    | skip
  case discrete =>
    unfold discreteCMI
    simp only
    rename_i xs z
    cases hc : condReduce false (.arr1 z) with
    | error => rfl
    | ok z' => simp only [Except.map, bind, Except.bind]; cases cmiInit xs (some z') o <;> rfl
  case millerMadow =>
    unfold discreteCMI
    simp only
    rename_i xs z
    cases hc : condReduce true (.arr1 z) with
    | error => rfl
    | ok z' => simp only [Except.map, bind, Except.bind]; cases cmiInit xs (some z') o <;> rfl
  case kernel => unfold kernelCMI kernelCMILocal; cases kcmiInit _ _ o _ <;> rfl
  case metric =>
    unfold ksgCMI ksgCMILocal
    cases hk : kcmiInit _ _ o _ with
    | error => rfl
    | ok dz =>
      rename_i cfg v
      have hl := kcmiInit_lens hk
      have hn := congrArg List.length hl
      simp only [List.length_map] at hn
      cases ksgIdCheck cfg with
      | error => rfl
      | ok u =>
        simp only [← hl, ← hn]
        rfl
  all_goals
    unfold expCMI
    cases hk : kcmiInit _ _ o _ with
    | error => rfl
    | ok dz =>
      rename_i k q v
      have hn := congrArg List.length (kcmiInit_lens hk)
      simp only [List.length_map] at hn
      cases expParams k q with
      | error => rfl
      | ok u =>
        simp only [← hn]
        rfl

/-- `.result()` of a transfer-entropy estimator: constructor, then `_calculate` -/
theorem split_te_value (W : World) (e : Est) : e.teVal W = (e.teObj W).map (fun r => r >>= fun f => f W {}) := by
  obtain ⟨⟨kind, fam⟩, data, cond, par⟩ := e
  unfold Est.teVal Est.teObj
  refine opt_map_bind fun b => opt_map_bind fun u => opt_map_bind fun o => opt_map_bind fun p => ?_
  cases fam
  all_goals
    repeat' first
      | refine opt_map_bind fun _ => ?_
      | refine opt_resc_some ?_
  case discrete => unfold discreteTE; cases teInit _ _ u o p.step <;> rfl
  case millerMadow => unfold discreteTE; cases teInit _ _ u o p.step <;> rfl
  case kernel =>
    unfold kernelTE kernelTELocal
    cases teInit _ _ u o p.step with
    | error => rfl
    | ok d => simp only [e2et_bind_assoc]; rfl
  case metric =>
    unfold ksgTE ksgTELocal
    cases teInit _ _ u o p.step with
    | error => rfl
    | ok d =>
      rename_i cfg _
      cases hc : ksgIdCheck cfg with
      | error => simp only [bind, Except.bind, hc]
      | ok _ => simp only [e2et_bind_assoc, hc]; rfl
  case ordinal =>
    unfold ordTE
    rename_i q
    cases teInit _ _ u o q.te.step with
    | error => rfl
    | ok d =>
      cases hc : ordPairChecks 0 d.1.length q.dim q.te.step with
      | error => simp only [bind, Except.bind, hc]
      | ok _ => simp only [e2et_bind_assoc, hc]; rfl
  case nsb =>
    unfold nsbTE genericTE
    rename_i d K
    cases hi : teInit d.1 d.2 u o p.step with
    | error => rfl
    | ok d => cases hc : nsbCheck K <;> simp only [bind, Except.bind, hc] <;> rfl
  case renyi =>
    unfold expTE
    cases teInit _ _ u o p.step with
    | error => rfl
    | ok d =>
      rename_i k q _
      cases hc : expParams k q with
      | error => simp only [bind, Except.bind, hc]
      | ok _ => cases hs : expStepCheck p.step <;> simp only [e2et_bind_assoc, bind, Except.bind, hc, hs] <;> rfl
  case tsallis =>
    unfold expTE
    cases teInit _ _ u o p.step with
    | error => rfl
    | ok d =>
      rename_i k q _
      cases hc : expParams k q with
      | error => simp only [bind, Except.bind, hc]
      | ok _ => cases hs : expStepCheck p.step <;> simp only [e2et_bind_assoc, bind, Except.bind, hc, hs] <;> rfl
  all_goals
    unfold biasTE genericTE
    rename_i d c
    cases hi : teInit d.1 d.2 u o p.step with
    | error => rfl
    | ok d => cases hc : c.check <;> simp only [bind, Except.bind, hc] <;> rfl

/-- `.result()` of a conditional transfer-entropy estimator: constructor, then `_calculate` -/
theorem split_cte_value (W : World) (e : Est) : e.cteVal W = (e.cteObj W).map (fun r => r >>= fun f => f W) := by
  obtain ⟨⟨kind, fam⟩, data, cond, par⟩ := e
  unfold Est.cteVal Est.cteObj
  refine opt_map_bind fun b => opt_map_bind fun u => opt_map_bind fun o => opt_map_bind fun p => opt_map_bind fun m => opt_map_bind fun zd => ?_
  cases fam
  all_goals
    repeat' first
      | refine opt_map_bind fun _ => ?_
      | refine opt_resc_some ?_
  case discrete => unfold discreteCTE; cases cteInit _ _ _ u o <;> rfl
  case millerMadow => unfold discreteCTE; cases cteInit _ _ _ u o <;> rfl
  case kernel =>
    unfold kernelCTE kernelCTELocal
    cases cteInit _ _ _ u o with
    | error => rfl
    | ok d => simp only [e2et_bind_assoc]; rfl
  case metric =>
    unfold ksgCTE ksgCTELocal
    cases cteInit _ _ _ u o with
    | error => rfl
    | ok d =>
      rename_i cfg _
      cases hc : ksgIdCheck cfg with
      | error => simp only [bind, Except.bind, hc]
      | ok _ => simp only [e2et_bind_assoc, hc]; rfl
  case ordinal =>
    unfold ordCTE
    rename_i q
    cases cteInit _ _ _ u o with
    | error => rfl
    | ok d =>
      cases hc : ordPairChecks 0 d.1.length q.dim q.te.step with
      | error => simp only [bind, Except.bind, hc]
      | ok _ => simp only [e2et_bind_assoc, hc]; rfl
  case nsb =>
    unfold nsbCTE genericCTE
    rename_i K
    cases cteInit _ _ _ u o with
    | error => rfl
    | ok d => cases hc : nsbCheck K <;> simp only [bind, Except.bind, hc] <;> rfl
  case renyi =>
    unfold expCTE
    cases cteInit _ _ _ u o with
    | error => rfl
    | ok d =>
      rename_i k q _
      cases hc : expParams k q with
      | error => simp only [bind, Except.bind, hc]
      | ok _ => cases hs : expStepCheck p.step <;> simp only [e2et_bind_assoc, bind, Except.bind, hc, hs] <;> rfl
  case tsallis =>
    unfold expCTE
    cases cteInit _ _ _ u o with
    | error => rfl
    | ok d =>
      rename_i k q _
      cases hc : expParams k q with
      | error => simp only [bind, Except.bind, hc]
      | ok _ => cases hs : expStepCheck p.step <;> simp only [e2et_bind_assoc, bind, Except.bind, hc, hs] <;> rfl
  all_goals
    unfold biasCTE genericCTE
    rename_i c
    cases cteInit _ _ _ u o with
    | error => rfl
    | ok d => cases hc : c.check <;> simp only [bind, Except.bind, hc] <;> rfl

end Verif
