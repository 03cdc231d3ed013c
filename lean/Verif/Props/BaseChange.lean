import Verif.Lemmas.Ordinal
import Verif.Lemmas.Rescale
import Verif.Props.MI

/-!
# C09: the base only rescales

`OnlyRescales f b`: calling `f` with base `b` fails exactly as it does in nats, and otherwise returns the
value in nats divided by `ln b`.  Stated for *every* argument, valid or not.
-/

namespace Verif

/-- the base is only a unit of measurement for the computation `f` (one number) -/
def OnlyRescales (f : Base → Except Exc ℝ) (b : Base) : Prop := f b = (f .e).map (fun v => v / b.ln)

/-- the same for arrays of local values -/
def OnlyRescalesL (f : Base → Except Exc (List ℝ)) (b : Base) : Prop := f b = (f .e).map (List.map (fun v => v / b.ln))

/-- what `OnlyRescales` means for two bases: values convert by the ratio of the logarithms, and errors do not
depend on the base -/
theorem C09_two_bases (f : Base → Except Exc ℝ) (b c : Base) (hb : b.Valid) (hc : c.Valid) (h1 : OnlyRescales f b)
    (h2 : OnlyRescales f c) :
    (∀ v w, f b = .ok v → f c = .ok w → w = v * (b.ln / c.ln)) ∧ (∀ e, f b = .error e ↔ f c = .error e) ∧
      ((∃ v, f b = .ok v) ↔ ∃ w, f c = .ok w) := by
  unfold OnlyRescales at h1 h2
  rw [h1, h2]
  cases f .e with
  | error e => simp [Except.map]
  | ok x =>
    refine ⟨?_, by simp [Except.map], by simp [Except.map]⟩
    intro v w hv hw
    cases hv; cases hw
    have := hb.ln_ne
    have := hc.ln_ne
    field_simp

/-- **C09** every discrete entropy and cross-entropy estimator class, every argument. -/
theorem C09_entropy (c : DClass) (args : List EInput) (b : Base) (hb : b.Valid) :
    OnlyRescales (fun b => c.globalVal b args) b :=
  resc_bind _ fun _ => resc_dispatch (resc_dclass_simple hb c) (resc_dclass_cross hb c) _

example := C09_entropy .chaoShen [.arr1 [5, 7, 5]] (.num 2) (by norm_num [Base.Valid])

/-- two bases, two real measures: bits against decimal digits -/
example := C09_two_bases (fun b => DClass.shrink.globalVal b [.arr1 [5, 7, 5]]) (.num 2) (.num 10) (by norm_num [Base.Valid])
  (by norm_num [Base.Valid]) (C09_entropy .shrink [.arr1 [5, 7, 5]] (.num 2) (by norm_num [Base.Valid]))
  (C09_entropy .shrink [.arr1 [5, 7, 5]] (.num 10) (by norm_num [Base.Valid]))

/-- **C09** the plug-in entropy as `entropy(..., approach="discrete")` computes it. -/
theorem C09_discrete_entropy (args : List EInput) (b : Base) (hb : b.Valid) : OnlyRescales (discreteEntropy args) b :=
  resc_bind _ fun _ => resc_dispatch (resc_simple hb) (resc_cross hb) _

example := C09_discrete_entropy [.tup [[5, 7, 5], [0, 0, 1]]] (.num 2) (by norm_num [Base.Valid])

/-- **C09** local values of the plug-in entropy. -/
theorem C09_discrete_entropy_local (args : List EInput) (b : Base) (hb : b.Valid) : OnlyRescalesL (discreteEntropyLocal args) b := by
  refine resc_bind _ fun l => ?_
  match l with
  | [] => rfl
  | [d] => exact resc_local hb d
  | _ :: _ :: _ => rfl

example := C09_discrete_entropy_local [.arr1 [5, 7, 5]] (.num (1 / 2)) (by norm_num [Base.Valid])

/-- **C09** Kullback–Leibler divergence, every discrete class. -/
theorem C09_kld (c : DClass) (p q : EInput) (b : Base) (hb : b.Valid) : OnlyRescales (fun b => kld c b p q) b := by
  unfold OnlyRescales kld
  simp only [bind, pure]
  refine resc_bind' (C09_entropy c [p, q] b hb) fun v => ?_
  refine resc_bind' (C09_entropy c [p] b hb) fun w => ?_
  exact resc_ok (by ring)

example := C09_kld .discrete (.arr1 [5, 7, 5]) (.arr1 [7, 5, 7]) (.num 2) (by norm_num [Base.Valid])

/-- **C09** Jensen–Shannon divergence, every discrete class and number of distributions. -/
theorem C09_jsd (c : DClass) (data : List EInput) (b : Base) (hb : b.Valid) : OnlyRescales (fun b => jsdDiscrete c b data) b := by
  unfold OnlyRescales jsdDiscrete
  simp only [bind]
  split_ifs <;> try rfl
  refine resc_bind _ fun ests => ?_
  refine resc_bind' (resc_mapM _ fun d => resc_dispatch (resc_dclass_simple hb c) (resc_dclass_cross hb c) d) fun vals => ?_
  simp only [List.length_map]
  split_ifs
  · rfl
  refine resc_bind _ fun dists => ?_
  rw [← resc_jsdCore hb]
  congr 1
  rw [List.zip_map_left]
  rfl

example := C09_jsd .discrete [.arr1 [5, 7, 5], .arr1 [7, 5, 7]] (.num 2) (by norm_num [Base.Valid])

/-- **C09** mutual information (plug-in and Miller–Madow) of any number of variables, for bases above 1. -/
theorem C09_mi (data : MIData) (offset : Option Int) (mm : Bool) (b : Base) (hb : b.Std) :
    OnlyRescales (fun b => discreteMI data offset b mm) b := by
  have hv := hb.valid
  unfold OnlyRescales
  cases data with
  | all1D cols =>
    simp only [discreteMI]
    refine resc_bind _ fun d => ?_
    simp only [miGlobal]
    match d with
    | [] => exact resc_miNdInt hv (resc_log hv) (mmRel_ite b mm) _
    | [_] => exact resc_miNdInt hv (resc_log hv) (mmRel_ite b mm) _
    | [xs, ys] => exact resc_mi2dInt hb hv hb.ln_pos (resc_log hv) (mmRel_ite b mm) _ _
    | _ :: _ :: _ :: _ => exact resc_miNdInt hv (resc_log hv) (mmRel_ite b mm) _
  | all2D cols =>
    simp only [discreteMI]
    exact resc_bind _ fun d => resc_miNdOther hv (resc_log hv) (mmRel_ite b mm) _
  | mixed => rfl

example := C09_mi (.all1D [[5, 7, 5], [0, 0, 1]]) none true (.num 2) (by norm_num [Base.Std])

/-- **C09** mutual information of other than two variables (or of row-valued variables): every valid base. -/
theorem C09_mi_not_two (cols : List (List Int)) (hc : cols.length ≠ 2) (offset : Option Int) (mm : Bool) (b : Base) (hb : b.Valid) :
    OnlyRescales (fun b => discreteMI (.all1D cols) offset b mm) b := by
  have hd : ∀ d, miInit cols offset = .ok d → d.length ≠ 2 := by
    intro d h
    unfold miInit at h
    split_ifs at h with h1 h2 h3
    cases offset with
    | none => cases h
    | some o =>
      have ho : o = 0 := by
        by_contra ho
        exact h2 ⟨by omega, by simp [ho]⟩
      subst ho
      cases h
      exact hc
  unfold OnlyRescales
  simp only [discreteMI, bind]
  cases h : miInit cols offset with
  | error e => rfl
  | ok d =>
    have := hd d h
    simp only [Except.bind, miGlobal]
    match d, this with
    | [], _ => exact resc_miNdInt (α := Int) hb (resc_log hb) (mmRel_ite b mm) _
    | [_], _ => exact resc_miNdInt hb (resc_log hb) (mmRel_ite b mm) _
    | _ :: _ :: _ :: _, _ => exact resc_miNdInt hb (resc_log hb) (mmRel_ite b mm) _

example := C09_mi_not_two [[5, 7, 5], [0, 0, 1], [2, 1, 2]] (by decide) (some 0) true (.num 2) (by norm_num [Base.Valid])

/-- **C09** local values of the mutual information: every valid base. -/
theorem C09_mi_local (data : List (List Int)) (offset : Option Int) (mm : Bool) (b : Base) (hb : b.Valid) :
    OnlyRescalesL (fun b => discreteMILocal data offset b mm) b :=
  resc_bind _ fun _ => resc_miLocal hb (resc_log hb) (mmRel_ite b mm) _

example := C09_mi_local [[5, 7, 5], [0, 0, 1]] (some 1) false (.num 2) (by norm_num [Base.Valid])

/-- **C09** conditional mutual information. -/
theorem C09_cmi (data : List (List Int)) (cond : Option CondArg) (offset : Option Int) (mm : Bool) (b : Base) (hb : b.Valid) :
    OnlyRescales (fun b => discreteCMI data cond offset b mm) b ∧
      OnlyRescalesL (fun b => discreteCMILocal data cond offset b mm) b := by
  unfold OnlyRescales OnlyRescalesL
  simp only [discreteCMI, discreteCMILocal, bind, pure]
  constructor
  · cases cond with
    | none => exact resc_bind _ fun z => resc_bind _ fun dz => resc_cmiNdInt hb (resc_log hb) (mmRel_ite b mm) _ _
    | some c => exact resc_bind _ fun z => resc_bind _ fun dz => resc_cmiNdInt hb (resc_log hb) (mmRel_ite b mm) _ _
  · cases cond with
    | none => exact resc_bind _ fun z => resc_bind _ fun dz => resc_cmiLocal hb (resc_log hb) (mmRel_ite b mm) _ _
    | some c => exact resc_bind _ fun z => resc_bind _ fun dz => resc_cmiLocal hb (resc_log hb) (mmRel_ite b mm) _ _

example := C09_cmi [[5, 7, 5], [0, 0, 1]] (some (.arr1 [3, 3, 4])) none true (.num 2) (by norm_num [Base.Valid])

theorem resc_combinedTE {b : Base} (hb : b.Valid) {mm mm' : Option Base} (hm : MmRel b mm mm') (s : TESlices Int) :
    combinedTE (logBase b) s mm = (combinedTE (logBase .e) s mm').map (fun v => v / b.ln) := by
  simp only [combinedTE, bind]
  cases s.cond with
  | none => exact resc_bind _ fun z => resc_cmiNdInt hb (resc_log hb) hm _ _
  | some z => exact resc_bind _ fun r => resc_bind _ fun z => resc_cmiNdInt (γ := Int) hb (resc_log hb) hm _ _

theorem resc_combinedTELocal {b : Base} (hb : b.Valid) {mm mm' : Option Base} (hm : MmRel b mm mm') (s : TESlices Int) :
    combinedTELocal (logBase b) s mm = (combinedTELocal (logBase .e) s mm').map (List.map (fun v => v / b.ln)) := by
  simp only [combinedTELocal, bind]
  cases s.cond with
  | none => exact resc_bind _ fun z => resc_cmiLocal hb (resc_log hb) hm _ _
  | some z => exact resc_bind _ fun r => resc_bind _ fun z => resc_cmiLocal (γ := Int) hb (resc_log hb) hm _ _

/-- **C09** transfer entropy, also permuted or resampled. -/
theorem C09_te (source dest : List Int) (p : TEParams) (propTime offset : Option PyArg) (mm : Bool) (rnd : SrcRandom)
    (b : Base) (hb : b.Valid) :
    OnlyRescales (fun b => discreteTE source dest p propTime offset b mm rnd) b ∧
      OnlyRescalesL (fun b => discreteTELocal source dest p propTime offset b mm rnd) b :=
  ⟨resc_bind _ fun _ => resc_bind _ fun _ => resc_combinedTE hb (mmRel_ite b mm) _,
   resc_bind _ fun _ => resc_bind _ fun _ => resc_combinedTELocal hb (mmRel_ite b mm) _⟩

example := C09_te [5, 7, 5, 7] [0, 0, 1, 0] ⟨.int 1, .int 1, .int 1⟩ (some (.int 1)) none true {} (.num 2) (by norm_num [Base.Valid])

/-- **C09** conditional transfer entropy. -/
theorem C09_cte (source dest : List Int) (cond : Option (List Int)) (p : TEParams) (condHist : PyArg)
    (propTime offset : Option PyArg) (mm : Bool) (b : Base) (hb : b.Valid) :
    OnlyRescales (fun b => discreteCTE source dest cond p condHist propTime offset b mm) b :=
  resc_bind _ fun _ => resc_bind _ fun _ => resc_combinedTE hb (mmRel_ite b mm) _

example := C09_cte [5, 7, 5, 7] [0, 0, 1, 0] (some [1, 1, 1, 2]) ⟨.int 1, .int 1, .int 1⟩ (.int 1) none none true (.num 2) (by norm_num [Base.Valid])

/-- the entropy estimator classes as the entropy-combination measures use them -/
noncomputable def DClass.hEst (c : DClass) (b : Base) : HEst :=
  match c with
  | .discrete => pluginH b
  | .millerMadow => millerMadowH b
  | .grassberger => grassbergerH b
  | .chaoShen => chaoShenH b
  | .chaoWangJost => chaoWangJostH b
  | .shrink => shrinkH b
  | .bayes α k => bayesH α k b
  | .zhang => zhangH b
  | .bonachela => bonachelaH b
  | .ansb k => ansbH k b

theorem hEstRel (c : DClass) {b : Base} (hb : b.Valid) : HEstRel b.ln (c.hEst b) (c.hEst .e) := by
  cases c with
  | discrete => exact ⟨resc_simple hb, resc_local hb⟩
  | millerMadow => exact ⟨resc_mmSimple hb, resc_mmLocal hb⟩
  | grassberger => exact ⟨resc_grassberger hb, resc_grassbergerLocal hb⟩
  | chaoShen => exact ⟨resc_chaoShen hb, fun _ => rfl⟩
  | chaoWangJost => exact ⟨resc_cwj hb, fun _ => rfl⟩
  | shrink => exact ⟨resc_shrink hb, resc_shrinkLocal hb⟩
  | bayes a k => exact ⟨resc_bayes hb a k, fun _ => rfl⟩
  | zhang => exact ⟨resc_zhang hb, resc_zhangLocal hb⟩
  | bonachela => exact ⟨resc_bonachela hb, fun _ => rfl⟩
  | ansb k => exact ⟨resc_ansb hb k, fun _ => rfl⟩

/-- **C09** mutual information, conditional mutual information and (conditional) transfer entropy computed as
entropy combinations, with every entropy estimator class. -/
theorem C09_combinations (c : DClass) (b : Base) (hb : b.Valid) :
    (∀ cols offset, OnlyRescales (fun b => genericMI (c.hEst b) cols offset) b) ∧
    (∀ cols cond offset, OnlyRescales (fun b => genericCMI (c.hEst b) cols cond offset) b) ∧
    (∀ source dest p propTime offset rnd, OnlyRescales (fun b => genericTE (c.hEst b) source dest p propTime offset rnd) b) ∧
    (∀ source dest cond p condHist propTime offset,
      OnlyRescales (fun b => genericCTE (c.hEst b) source dest cond p condHist propTime offset) b) := by
  refine ⟨fun cols offset => ?_, fun cols cond offset => ?_, fun source dest p propTime offset rnd => ?_,
    fun source dest cond p condHist propTime offset => ?_⟩
  · exact resc_bind _ fun _ => resc_bind _ fun _ => resc_bind _ fun _ => resc_combineH (hEstRel c hb) _ _
  · exact resc_bind _ fun _ => resc_bind _ fun _ => resc_bind _ fun _ => resc_bind _ fun _ => resc_combineH (hEstRel c hb) _ _
  · exact resc_bind _ fun _ => resc_bind _ fun _ => resc_bind _ fun _ => resc_bind _ fun _ => resc_bind _ fun _ =>
      resc_bind _ fun _ => resc_bind _ fun _ => resc_combineH (hEstRel c hb) _ _
  · exact resc_bind _ fun _ => resc_bind _ fun _ => resc_bind _ fun _ => resc_bind _ fun _ => resc_bind _ fun _ =>
      resc_bind _ fun _ => resc_bind _ fun _ => resc_combineH (hEstRel c hb) _ _

example := C09_combinations .grassberger (.num 2) (by norm_num [Base.Valid])

section
variable {α : Type} [LinearOrder α] [Inhabited α]

theorem resc_ordSimple {b : Base} (hb : b.Valid) (q : Argsort α) (x : List α) (d s : Int) (st : Bool) :
    ordSimple q x d s st b = (ordSimple q x d s st .e).map (fun r => (r.1 / b.ln, r.2)) := by
  simp only [ordSimple, bind, pure]
  split_ifs
  · exact resc_ok (by simp)
  · exact resc_ok (by simp)
  refine resc_bind _ fun o => ?_
  exact resc_bind' (resc_plogp hb _) fun h => rfl

/-- **C09** ordinal entropy (one variable, joint, cross). -/
theorem C09_ordinal_entropy (q : Argsort α) (args : List (OInput α)) (p : OrdParams) (b : Base) (hb : b.Valid) :
    OnlyRescales (ordEntropy q args p) b := by
  unfold OnlyRescales ordEntropy
  simp only [bind]
  refine resc_bind _ fun i => ?_
  have hj : ∀ cols, ordJoint q cols i.2.1 i.2.2 b = (ordJoint q cols i.2.1 i.2.2 .e).map (fun v => v / b.ln) := fun cols =>
    resc_bind _ fun _ => resc_bind _ fun _ => resc_bind _ fun _ => resc_plogp hb _
  have hc : ∀ x y, ordCross q x y i.2.1 i.2.2 b = (ordCross q x y i.2.1 i.2.2 .e).map (fun v => v / b.ln) := fun x y =>
    resc_bind _ fun _ => resc_bind _ fun _ => resc_bind _ fun _ => resc_bind _ fun _ => resc_cross hb _ _
  split
  · rw [resc_ordSimple hb]
    cases ordSimple q _ i.2.1 i.2.2 p.stable .e <;> rfl
  · exact hj _
  · exact hc _ _
  · rfl

example := C09_ordinal_entropy (α := Int) stableSort [.arr1 [5, 7, 5, 9]] ⟨.int 2, .int 1, false⟩ (.num 2) (by norm_num [Base.Valid])

/-- **C09** ordinal mutual information (bases above 1), conditional mutual information and transfer entropies. -/
theorem C09_ordinal_measures (q : Argsort α) (b : Base) (hb : b.Std) :
    (∀ data p offset, OnlyRescales (ordMI q data p offset) b) ∧
    (∀ data cond p offset, OnlyRescales (ordCMI q data cond p offset) b) ∧
    (∀ source dest p propTime offset rnd, OnlyRescales (fun b => ordTE q source dest p propTime offset b rnd) b) ∧
    (∀ source dest cond p propTime offset, OnlyRescales (ordCTE q source dest cond p propTime offset) b) := by
  have hv := hb.valid
  refine ⟨fun data p offset => ?_, fun data cond p offset => ?_, fun source dest p propTime offset rnd => ?_,
    fun source dest cond p propTime offset => ?_⟩
  · refine resc_bind _ fun s => ?_
    simp only [ordMICalculate]
    split_ifs
    · exact resc_zero _
    simp only [miGlobal]
    match s.symbols with
    | [] => exact resc_miNdInt hv (resc_log hv) (Or.inl ⟨rfl, rfl⟩) _
    | [_] => exact resc_miNdInt hv (resc_log hv) (Or.inl ⟨rfl, rfl⟩) _
    | [xs, ys] => exact resc_mi2dInt hb hv hb.ln_pos (resc_log hv) (Or.inl ⟨rfl, rfl⟩) _ _
    | _ :: _ :: _ :: _ => exact resc_miNdInt hv (resc_log hv) (Or.inl ⟨rfl, rfl⟩) _
  · refine resc_bind _ fun s => ?_
    simp only [ordCMICalculate]
    split_ifs
    · exact resc_zero _
    · exact resc_cmiNdInt hv (resc_log hv) (Or.inl ⟨rfl, rfl⟩) _ _
  · exact resc_bind _ fun _ => resc_bind _ fun _ => resc_bind _ fun _ => resc_bind _ fun _ => resc_bind _ fun _ =>
      resc_combinedTE hv (Or.inl ⟨rfl, rfl⟩) _
  · exact resc_bind _ fun _ => resc_bind _ fun _ => resc_bind _ fun _ => resc_bind _ fun _ => resc_bind _ fun _ => resc_bind _ fun _ =>
      resc_combinedTE hv (Or.inl ⟨rfl, rfl⟩) _

example := C09_ordinal_measures (α := Int) stableSort (.num 2) (by norm_num [Base.Std])

/-- **C09** the ordinal divergences. -/
theorem C09_ordinal_divergences (q : Argsort α) (b : Base) (hb : b.Valid) :
    (∀ data p, OnlyRescales (ordJsd q data p) b) ∧ (∀ x y p, OnlyRescales (ordKld q x y p) b) := by
  refine ⟨fun data p => ?_, fun x y p => ?_⟩
  · refine resc_bind _ fun ests => ?_
    refine resc_bind' (resc_mapM _ fun e => resc_ordSimple hb _ _ _ _ _) fun vals => ?_
    rw [← resc_jsdCore hb]
    congr 1
    simp only [List.map_map]
    rfl
  · unfold OnlyRescales ordKld
    simp only [bind, pure]
    refine resc_bind' (C09_ordinal_entropy q _ p b hb) fun v => ?_
    refine resc_bind' (C09_ordinal_entropy q _ p b hb) fun w => ?_
    exact resc_ok (by ring)

example := C09_ordinal_divergences (α := Int) stableSort (.num 2) (by norm_num [Base.Valid])

end

end Verif
