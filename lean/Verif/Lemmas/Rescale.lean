import Verif.Model.Divergence
import Verif.Model.OrdinalMI
import Verif.Model.TE

/-!
# How the base enters every discrete computation

`x = y.map (· / r)`: the two computations fail in the same way, or the first value is the second
divided by `r`.  The lemmas follow the structure of the model.
-/

namespace Verif

theorem resc_bind {τ β γ : Type} {φ : β → γ} (a : Except Exc τ) {f : τ → Except Exc γ} {g : τ → Except Exc β}
    (h : ∀ t, f t = (g t).map φ) : a.bind f = (a.bind g).map φ := by
  cases a with
  | error e => rfl
  | ok t => exact h t

theorem resc_bind' {β β' γ γ' : Type} {φ : β → β'} {χ : γ → γ'} {a : Except Exc β'} {b : Except Exc β}
    (hab : a = b.map φ) {f : β' → Except Exc γ'} {g : β → Except Exc γ} (h : ∀ v, f (φ v) = (g v).map χ) :
    a.bind f = (b.bind g).map χ := by
  subst hab
  cases b with
  | error e => rfl
  | ok t => exact h t

theorem resc_ok {β γ : Type} {φ : β → γ} {x : γ} {y : β} (h : x = φ y) : (Except.ok x : Except Exc γ) = (Except.ok y).map φ := by
  rw [h]; rfl

theorem resc_mapM {τ β γ : Type} {φ : β → γ} (l : List τ) {f : τ → Except Exc γ} {g : τ → Except Exc β}
    (h : ∀ t, f t = (g t).map φ) : l.mapM f = (l.mapM g).map (List.map φ) := by
  induction l with
  | nil => rfl
  | cons a l ih =>
    rw [List.mapM_cons, List.mapM_cons]
    simp only [bind, pure]
    refine resc_bind' (h a) fun v => ?_
    refine resc_bind' ih fun vs => ?_
    rfl

theorem sum_div_map (r : ℝ) (l : List ℝ) : (l.map (fun v => v / r)).sum = l.sum / r := by
  induction l with
  | nil => simp
  | cons a l ih => simp only [List.map_cons, List.sum_cons, ih]; ring

theorem resc_log {b : Base} (hb : b.Valid) (x : ℝ) : logBase b x = (logBase .e x).map (fun v => v / b.ln) := by
  cases b with
  | e => simp only [logBase, npLog, Base.ln, div_one]; split_ifs <;> rfl
  | num b =>
    obtain ⟨h0, h1⟩ := hb
    simp only [logBase, Base.ln]
    split_ifs with h2 h10 h00 hn
    · rw [h2]
    · rw [h10]
    · linarith
    · linarith
    · rfl

theorem resc_scale {b : Base} (hb : b.Valid) (x : ℝ) : scaleBase b x = (scaleBase .e x).map (fun v => v / b.ln) := by
  cases b with
  | e => simp [scaleBase, Base.ln, Except.map]
  | num b =>
    obtain ⟨h0, h1⟩ := hb
    simp only [scaleBase, Base.ln]
    rw [if_neg h0.ne', if_pos ⟨h0, h1⟩]
    rfl

/-- the two logarithm functions differ by the factor `r` -/
def LgRel (r : ℝ) (lg lg' : ℝ → Except Exc ℝ) : Prop := ∀ x, lg x = (lg' x).map (fun v => v / r)

/-- both computations are corrected, or neither -/
def MmRel (b : Base) (mm mm' : Option Base) : Prop := (mm = none ∧ mm' = none) ∨ (mm = some b ∧ mm' = some .e)

theorem mmRel_ite (b : Base) (mm : Bool) : MmRel b (if mm then some b else none) (if mm then some .e else none) := by
  cases mm
  · exact Or.inl ⟨rfl, rfl⟩
  · exact Or.inr ⟨rfl, rfl⟩

theorem resc_addCorr {b : Base} (hb : b.Valid) {mm mm' : Option Base} (hm : MmRel b mm mm') (kI : List Nat) (kJ n : Nat)
    (kc : Option Nat) (v : ℝ) :
    addCorr mm (fun base => millerMadowCorr kI kJ n base kc) (v / b.ln) =
      (addCorr mm' (fun base => millerMadowCorr kI kJ n base kc) v).map (fun v => v / b.ln) := by
  rcases hm with ⟨rfl, rfl⟩ | ⟨rfl, rfl⟩
  · rfl
  · simp only [addCorr, bind, pure, millerMadowCorr]
    by_cases hn : n = 0
    · simp only [if_pos hn]; rfl
    simp only [if_neg hn]
    refine resc_bind' (resc_scale hb _) fun c => ?_
    exact resc_ok (by ring)

section
variable {α γ : Type} [LinearOrder α] [LinearOrder γ] {b : Base} {lg lg' : ℝ → Except Exc ℝ} {mm mm' : Option Base}

theorem resc_zero (r : ℝ) : (Except.ok 0 : Except Exc ℝ) = (Except.ok 0).map (fun v => v / r) := resc_ok (by simp)

theorem resc_miNdInt (hb : b.Valid) (hl : LgRel b.ln lg lg') (hm : MmRel b mm mm') (data : List (List α)) :
    miNdInt lg data mm = (miNdInt lg' data mm').map (fun v => v / b.ln) := by
  simp only [miNdInt, bind, pure]
  split_ifs
  · exact resc_zero _
  refine resc_bind' (φ := List.map (fun v => v / b.ln)) (resc_mapM _ fun e => ?_) fun ts => ?_
  · refine resc_bind' (hl _) fun v1 => ?_
    refine resc_bind' (hl _) fun v2 => ?_
    refine resc_bind' (hl _) fun v3 => ?_
    exact resc_ok (by ring)
  · rw [sum_div_map]
    exact resc_addCorr hb hm _ _ _ _ _

theorem resc_mi2dInt (hb : b.Std) (hbv : b.Valid) (hpos : 0 < b.ln) (hl : LgRel b.ln lg lg') (hm : MmRel b mm mm') (xs ys : List α) :
    mi2dInt lg xs ys mm = (mi2dInt lg' xs ys mm').map (fun v => v / b.ln) := by
  simp only [mi2dInt, bind, pure]
  split_ifs
  · rfl
  · exact resc_zero _
  refine resc_bind' (φ := List.map (fun v => v / b.ln)) (resc_mapM _ fun e => ?_) fun ts => ?_
  · refine resc_bind' (hl _) fun v1 => ?_
    refine resc_bind' (hl _) fun v2 => ?_
    refine resc_bind' (hl _) fun v3 => ?_
    refine resc_bind' (hl _) fun v4 => ?_
    refine resc_bind' (hl _) fun v5 => ?_
    exact resc_ok (by ring)
  · rw [sum_div_map]
    have : max (ts.sum / b.ln) 0 = max ts.sum 0 / b.ln := by
      rw [← max_div_div_right hpos.le, zero_div]
    rw [this]
    exact resc_addCorr hbv hm _ _ _ _ _

theorem resc_miNdOther [Inhabited α] (hb : b.Valid) (hl : LgRel b.ln lg lg') (hm : MmRel b mm mm') (data : List (List α)) :
    miNdOther lg data mm = (miNdOther lg' data mm').map (fun v => v / b.ln) := by
  simp only [miNdOther, bind, pure]
  refine resc_bind' (φ := List.map (fun v => v / b.ln)) (resc_mapM _ fun e => ?_) fun ts => ?_
  · refine resc_bind' (hl _) fun v1 => ?_
    exact resc_ok (by ring)
  · simp only [List.length_map]
    split_ifs
    · exact resc_zero _
    · rw [sum_div_map]
      exact resc_addCorr hb hm _ _ _ _ _

theorem resc_miLocal (hb : b.Valid) (hl : LgRel b.ln lg lg') (hm : MmRel b mm mm') (data : List (List α)) :
    miLocal lg data mm = (miLocal lg' data mm').map (List.map (fun v => v / b.ln)) := by
  simp only [miLocal, bind]
  split_ifs
  · exact resc_ok (by simp)
  refine resc_mapM _ fun e => ?_
  refine resc_bind' (hl _) fun v1 => ?_
  refine resc_bind' (hl _) fun v2 => ?_
  have : -(v1 / b.ln) + v2 / b.ln = (-v1 + v2) / b.ln := by ring
  rw [this]
  exact resc_addCorr hb hm _ _ _ _ _

theorem resc_cmiNdInt (hb : b.Valid) (hl : LgRel b.ln lg lg') (hm : MmRel b mm mm') (data : List (List α)) (cond : List γ) :
    cmiNdInt lg data cond mm = (cmiNdInt lg' data cond mm').map (fun v => v / b.ln) := by
  simp only [cmiNdInt, bind, pure]
  split_ifs
  · exact resc_zero _
  refine resc_bind' (φ := List.map (fun v => v / b.ln)) (resc_mapM _ fun e => ?_) fun ts => ?_
  · refine resc_bind' (hl _) fun v1 => ?_
    refine resc_bind' (hl _) fun v2 => ?_
    refine resc_bind' (hl _) fun v3 => ?_
    refine resc_bind' (φ := List.map (fun v => v / b.ln)) (resc_mapM _ fun _ => hl _) fun vs => ?_
    rw [sum_div_map]
    exact resc_ok (by ring)
  · rw [sum_div_map]
    exact resc_addCorr hb hm _ _ _ _ _

theorem resc_cmiLocal (hb : b.Valid) (hl : LgRel b.ln lg lg') (hm : MmRel b mm mm') (data : List (List α)) (cond : List γ) :
    cmiLocal lg data cond mm = (cmiLocal lg' data cond mm').map (List.map (fun v => v / b.ln)) := by
  simp only [cmiLocal, bind]
  split_ifs
  · exact resc_ok (by simp)
  refine resc_mapM _ fun e => ?_
  refine resc_bind' (hl _) fun v1 => ?_
  refine resc_bind' (hl _) fun v2 => ?_
  rw [← sub_div]
  exact resc_addCorr hb hm _ _ _ _ _

end

/-! ### entropies -/

section
variable {α : Type} {b : Base}

theorem resc_plogp (hb : b.Valid) (ps : List ℝ) :
    (ps.mapM (fun p => (logBase b p).bind fun l => Except.ok (p * l))).bind (fun ts => Except.ok (-ts.sum)) =
      ((ps.mapM (fun p => (logBase .e p).bind fun l => Except.ok (p * l))).bind (fun ts => Except.ok (-ts.sum))).map
        (fun v => v / b.ln) := by
  refine resc_bind' (φ := List.map (fun v => v / b.ln)) (resc_mapM _ fun e => ?_) fun ts => ?_
  · refine resc_bind' (resc_log hb _) fun v => ?_
    exact resc_ok (by ring)
  · rw [sum_div_map]
    exact resc_ok (by ring)

theorem resc_simple (hb : b.Valid) (d : DiscreteData α) : discreteSimple b d = (discreteSimple .e d).map (fun v => v / b.ln) :=
  resc_plogp hb _

theorem resc_neg_list (hb : b.Valid) (ps : List ℝ) :
    (ps.mapM (logBase b)).bind (fun l => Except.ok (l.map (fun v => -v))) =
      ((ps.mapM (logBase .e)).bind (fun l => Except.ok (l.map (fun v => -v)))).map (List.map (fun v => v / b.ln)) := by
  refine resc_bind' (φ := List.map (fun v => v / b.ln)) (resc_mapM _ fun e => resc_log hb e) fun ts => ?_
  refine resc_ok ?_
  simp only [List.map_map]
  exact List.map_congr_left fun v _ => by simp [neg_div]

theorem resc_local [DecidableEq α] (hb : b.Valid) (d : DiscreteData α) :
    discreteLocal b d = (discreteLocal .e d).map (List.map (fun v => v / b.ln)) := by
  simp only [discreteLocal, bind, pure]
  cases d.data with
  | none => rfl
  | some xs => exact resc_bind _ fun xs => resc_bind _ fun ps => resc_neg_list hb ps

theorem resc_cross_terms [DecidableEq α] (hb : b.Valid) (dp dq : List (α × ℝ)) (l : List α) :
    l.mapM (fun v => (dictGet dp v).bind fun pv => (dictGet dq v).bind fun qv => (logBase b qv).bind fun l => Except.ok (pv * l)) =
      (l.mapM (fun v => (dictGet dp v).bind fun pv => (dictGet dq v).bind fun qv => (logBase .e qv).bind fun l =>
        Except.ok (pv * l))).map (List.map (fun v => v / b.ln)) := by
  refine resc_mapM _ fun v => ?_
  refine resc_bind _ fun pv => ?_
  refine resc_bind _ fun qv => ?_
  refine resc_bind' (resc_log hb _) fun v => ?_
  exact resc_ok (by ring)

theorem resc_cross [DecidableEq α] (hb : b.Valid) (p q : DiscreteData α) :
    discreteCross b p q = (discreteCross .e p q).map (fun v => v / b.ln) := by
  simp only [discreteCross, bind, pure]
  split_ifs
  · exact resc_zero _
  refine resc_bind' (resc_cross_terms hb _ _ _) fun ts => ?_
  rw [sum_div_map]
  exact resc_ok (by ring)

theorem resc_mmSimple (hb : b.Valid) (d : DiscreteData α) : mmSimple b d = (mmSimple .e d).map (fun v => v / b.ln) := by
  simp only [mmSimple, bind, pure, mmFactor]
  refine resc_bind' (resc_simple hb _) fun v => ?_
  refine resc_bind' (resc_scale hb _) fun w => ?_
  exact resc_ok (by ring)

theorem resc_mmLocal [DecidableEq α] (hb : b.Valid) (d : DiscreteData α) :
    mmLocal b d = (mmLocal .e d).map (List.map (fun v => v / b.ln)) := by
  simp only [mmLocal, bind, pure, mmFactor]
  refine resc_bind' (resc_local hb _) fun v => ?_
  refine resc_bind' (resc_scale hb _) fun w => ?_
  refine resc_ok ?_
  simp only [List.map_map]
  exact List.map_congr_left fun v _ => by simp [add_div]

theorem resc_mmCross [DecidableEq α] (hb : b.Valid) (p q : DiscreteData α) :
    mmCross b p q = (mmCross .e p q).map (fun v => v / b.ln) := by
  simp only [mmCross, bind, pure]
  split_ifs
  · exact resc_zero _
  refine resc_bind' (resc_cross_terms hb _ _ _) fun ts => ?_
  rw [sum_div_map]
  refine resc_bind' (resc_scale hb _) fun w => ?_
  exact resc_ok (by ring)

theorem resc_grassbergerLocal [DecidableEq α] (hb : b.Valid) (d : DiscreteData α) :
    grassbergerLocal b d = (grassbergerLocal .e d).map (List.map (fun v => v / b.ln)) := by
  simp only [grassbergerLocal, bind]
  refine resc_bind _ fun xs => ?_
  refine resc_bind _ fun ns => ?_
  refine resc_bind _ fun lN => ?_
  refine resc_mapM _ fun n => ?_
  refine resc_bind _ fun ψ => ?_
  refine resc_bind _ fun r => ?_
  exact resc_scale hb _

theorem resc_mean {x y : Except Exc (List ℝ)} {r : ℝ} (h : x = y.map (List.map (fun v => v / r))) :
    x.map meanOf = (y.map meanOf).map (fun v => v / r) := by
  subst h
  cases y with
  | error e => rfl
  | ok l =>
    refine resc_ok ?_
    simp only [meanOf, sum_div_map, List.length_map]
    ring

theorem resc_grassberger [DecidableEq α] (hb : b.Valid) (d : DiscreteData α) :
    grassbergerSimple b d = (grassbergerSimple .e d).map (fun v => v / b.ln) :=
  resc_mean (resc_grassbergerLocal hb d)

theorem resc_chaoShen (hb : b.Valid) (d : DiscreteData α) :
    chaoShenSimple b d = (chaoShenSimple .e d).map (fun v => v / b.ln) := by
  simp only [chaoShenSimple, bind]
  exact resc_bind _ fun ts => resc_scale hb _

theorem resc_cwj (hb : b.Valid) (d : DiscreteData α) : cwjSimple b d = (cwjSimple .e d).map (fun v => v / b.ln) := by
  simp only [cwjSimple, bind]
  exact resc_bind _ fun ψ => resc_bind _ fun ts => resc_scale hb _

theorem resc_shrink (hb : b.Valid) (d : DiscreteData α) : shrinkSimple b d = (shrinkSimple .e d).map (fun v => v / b.ln) :=
  resc_plogp hb _

theorem resc_shrinkLocal [DecidableEq α] (hb : b.Valid) (d : DiscreteData α) :
    shrinkLocal b d = (shrinkLocal .e d).map (List.map (fun v => v / b.ln)) := by
  simp only [shrinkLocal, bind, pure]
  refine resc_bind _ fun xs => ?_
  refine resc_mapM _ fun v => ?_
  refine resc_bind _ fun p => ?_
  refine resc_bind' (resc_log hb _) fun l => ?_
  exact resc_ok (by ring)

theorem resc_bayes (hb : b.Valid) (a : AlphaArg) (k : Option Nat) (d : DiscreteData α) :
    bayesSimple a k b d = (bayesSimple a k .e d).map (fun v => v / b.ln) := by
  simp only [bayesSimple, bind, pure]
  exact resc_bind _ fun ps => resc_plogp hb ps

theorem resc_bayesCross [DecidableEq α] (hb : b.Valid) (a : AlphaArg) (k : Option Nat) (p q : DiscreteData α) :
    bayesCross a k b p q = (bayesCross a k .e p q).map (fun v => v / b.ln) := by
  simp only [bayesCross, bind, pure]
  refine resc_bind _ fun dp => ?_
  refine resc_bind _ fun dq => ?_
  split_ifs
  · exact resc_zero _
  refine resc_bind' (resc_cross_terms hb _ _ _) fun ts => ?_
  rw [sum_div_map]
  exact resc_ok (by ring)

theorem resc_zhang (hb : b.Valid) (d : DiscreteData α) : zhangSimple b d = (zhangSimple .e d).map (fun v => v / b.ln) := by
  simp only [zhangSimple]
  split_ifs
  · exact resc_zero _
  · exact resc_zero _
  · exact resc_scale hb _

theorem resc_zhangLocal [DecidableEq α] (hb : b.Valid) (d : DiscreteData α) :
    zhangLocal b d = (zhangLocal .e d).map (List.map (fun v => v / b.ln)) := by
  simp only [zhangLocal, bind]
  exact resc_bind _ fun xs => resc_bind _ fun vs => resc_mapM _ fun v => resc_scale hb _

theorem resc_bonachela (hb : b.Valid) (d : DiscreteData α) :
    bonachelaSimple b d = (bonachelaSimple .e d).map (fun v => v / b.ln) := by
  simp only [bonachelaSimple, bind]
  exact resc_bind _ fun ts => resc_scale hb _

theorem resc_ansb (hb : b.Valid) (k : Option Int) (d : DiscreteData α) :
    ansbSimple k b d = (ansbSimple k .e d).map (fun v => v / b.ln) := by
  simp only [ansbSimple, bind]
  split_ifs
  · rfl
  · exact resc_bind _ fun l => resc_bind _ fun ψ => resc_scale hb _

theorem resc_dclass_simple (hb : b.Valid) (c : DClass) (d : DiscreteData Int) :
    c.simple b d = (c.simple .e d).map (fun v => v / b.ln) := by
  cases c with
  | discrete => exact resc_simple hb d
  | millerMadow => exact resc_mmSimple hb d
  | grassberger => exact resc_grassberger hb d
  | chaoShen => exact resc_chaoShen hb d
  | chaoWangJost => exact resc_cwj hb d
  | shrink => exact resc_shrink hb d
  | bayes a k => exact resc_bayes hb a k d
  | zhang => exact resc_zhang hb d
  | bonachela => exact resc_bonachela hb d
  | ansb k => exact resc_ansb hb k d

theorem resc_dclass_cross (hb : b.Valid) (c : DClass) (p q : DiscreteData Int) :
    c.cross b p q = (c.cross .e p q).map (fun v => v / b.ln) := by
  cases c with
  | discrete => exact resc_cross hb p q
  | millerMadow => exact resc_mmCross hb p q
  | bayes a k => exact resc_bayesCross hb a k p q
  | _ => rfl

theorem resc_dispatch {s s' : DiscreteData Int → Except Exc ℝ} {c c' : DiscreteData Int → DiscreteData Int → Except Exc ℝ} {r : ℝ}
    (hs : ∀ d, s d = (s' d).map (fun v => v / r)) (hc : ∀ p q, c p q = (c' p q).map (fun v => v / r))
    (l : List (DiscreteData Int)) : entropyDispatch s c l = (entropyDispatch s' c' l).map (fun v => v / r) := by
  match l with
  | [] => rfl
  | [d] => exact hs d
  | [p, q] => exact hc p q
  | _ :: _ :: _ :: _ => rfl

theorem resc_jsdCore {κ : Type} [DecidableEq κ] (hb : b.Valid) (ests : List (ℝ × List (κ × ℝ))) :
    jsdCore b (ests.map (fun e => (e.1 / b.ln, e.2))) = (jsdCore .e ests).map (fun v => v / b.ln) := by
  simp only [jsdCore, bind, pure, List.length_map]
  split_ifs
  · rfl
  have h1 : ((ests.map (fun e => (e.1 / b.ln, e.2))).map (fun e => e.1)).sum = (ests.map (fun e => e.1)).sum / b.ln := by
    rw [← sum_div_map, List.map_map, List.map_map]; rfl
  have h2 : (ests.map (fun e => (e.1 / b.ln, e.2))).flatMap (fun e => e.2.map (fun kv => kv.1)) =
      ests.flatMap (fun e => e.2.map (fun kv => kv.1)) := by
    rw [List.flatMap_map]
  have h3 : ∀ k, (ests.map (fun e => (e.1 / b.ln, e.2))).map (fun e => dictGetZero e.2 k) = ests.map (fun e => dictGetZero e.2 k) := by
    intro k; rw [List.map_map]; rfl
  rw [h1, h2]
  simp only [h3]
  refine resc_bind' (φ := List.map (fun v => v / b.ln)) (resc_mapM _ fun e => ?_) fun ts => ?_
  · refine resc_bind' (resc_log hb _) fun v => ?_
    exact resc_ok (by ring)
  · rw [sum_div_map]
    exact resc_ok (by ring)

/-! ### entropy combinations -/

/-- an estimator class in two bases -/
def HEstRel (r : ℝ) (e e' : HEst) : Prop :=
  (∀ d, e.globalVal d = (e'.globalVal d).map (fun v => v / r)) ∧
  (∀ d, e.localVals d = (e'.localVals d).map (List.map (fun v => v / r)))

theorem resc_sumAxis0 (r : ℝ) (ls : List (List ℝ)) :
    npSumAxis0 (ls.map (List.map (fun v => v / r))) = (npSumAxis0 ls).map (List.map (fun v => v / r)) := by
  have hh : (ls.map (List.map (fun v => v / r))).headD [] = (ls.headD []).map (fun v => v / r) := by cases ls <;> rfl
  simp only [npSumAxis0, hh, List.length_map, List.all_map, Function.comp_def]
  split_ifs
  · refine resc_ok ?_
    rw [List.map_map]
    refine List.map_congr_left fun t _ => ?_
    simp only [Function.comp, ← sum_div_map, List.map_map]
    congr 1
    refine List.map_congr_left fun l _ => ?_
    simp only [Function.comp, List.getD_eq_getElem?_getD, List.getElem?_map]
    cases l[t]? <;> simp
  · rfl

theorem resc_npSub (r : ℝ) (x y : List ℝ) :
    npSub (x.map (fun v => v / r)) (y.map (fun v => v / r)) = (npSub x y).map (List.map (fun v => v / r)) := by
  simp only [npSub, List.length_map]
  split_ifs
  · refine resc_ok ?_
    rw [List.zipWith_map, List.map_zipWith]
    simp only [sub_div]
  · rfl

theorem resc_foldlM {r : ℝ} {e e' : HEst} (h : HEstRel r e e') (minus : List (DiscreteData Int)) (s : List ℝ) :
    minus.foldlM (fun acc d => (e.localVals d).bind fun l => npSub acc l) (s.map (fun v => v / r)) =
      (minus.foldlM (fun acc d => (e'.localVals d).bind fun l => npSub acc l) s).map (List.map (fun v => v / r)) := by
  induction minus generalizing s with
  | nil => rfl
  | cons d ds ih =>
    rw [List.foldlM_cons, List.foldlM_cons]
    simp only [bind]
    refine resc_bind' (φ := List.map (fun v => v / r)) ?_ fun s' => ih s'
    exact resc_bind' (h.2 d) fun l => resc_npSub r _ _

theorem foldl_sub_div (r : ℝ) (ms : List ℝ) (x : ℝ) :
    (ms.map (fun v => v / r)).foldl (fun acc v => acc - v) (x / r) = ms.foldl (fun acc v => acc - v) x / r := by
  induction ms generalizing x with
  | nil => rfl
  | cons m ms ih => simp only [List.map_cons, List.foldl_cons, ← sub_div, ih]

theorem resc_combineH {r : ℝ} {e e' : HEst} (h : HEstRel r e e') (plus minus : List (DiscreteData Int)) :
    combineH e plus minus = (combineH e' plus minus).map (fun v => v / r) := by
  have hv : ((plus.mapM e.localVals).bind fun ps => (npSumAxis0 ps).bind fun s =>
      minus.foldlM (fun acc d => (e.localVals d).bind fun l => npSub acc l) s) =
      ((plus.mapM e'.localVals).bind fun ps => (npSumAxis0 ps).bind fun s =>
      minus.foldlM (fun acc d => (e'.localVals d).bind fun l => npSub acc l) s).map (List.map (fun v => v / r)) := by
    refine resc_bind' (resc_mapM _ h.2) fun ps => ?_
    exact resc_bind' (resc_sumAxis0 r ps) fun s => resc_foldlM h minus s
  simp only [combineH, bind, pure]
  rw [hv]
  cases hx : ((plus.mapM e'.localVals).bind fun ps => (npSumAxis0 ps).bind fun s =>
      minus.foldlM (fun acc d => (e'.localVals d).bind fun l => npSub acc l) s) with
  | ok arr =>
    refine resc_ok ?_
    rw [sum_div_map, List.length_map]
    ring
  | error x =>
    simp only [Except.map]
    split_ifs
    · refine resc_bind' (resc_mapM _ h.1) fun gs => ?_
      refine resc_bind' (resc_mapM _ h.1) fun ms => ?_
      rw [sum_div_map, foldl_sub_div]
      rfl
    · rfl

end

end Verif
