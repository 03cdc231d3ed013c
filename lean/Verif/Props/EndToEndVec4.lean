import Verif.Props.EndToEndVec3
import Verif.Lemmas.BiasMIVec2
import Verif.Lemmas.BiasMIVecGen

/-!
# C90: two-dimensional arrays through the public functions (bias-corrected mutual informations, discrete conditional mutual information)

`VectorData` (`Spec/EndToEndVec.lean`): the arguments are series of vectors (a one-dimensional array: of one-component vectors).
Concrete calls that meet the hypotheses are in `Props/EndToEndVecEx2.lean`.
-/

set_option linter.unusedSimpArgs false
set_option linter.unusedVariables false

namespace Verif

open Spec

variable {W : World} {a : PyName} {kw : Kw} {b : Base} {cond : CondKw PyData}

theorem intVectors_arr {d : PyData} {w : Nat} {v : List (List Int)} (h : IntVectors d w v) :
    ∃ x : IArr, d.toIArr = some x ∧ d.toCondIArr = some (.ok x) ∧ x.rows = v ∧ x.Wide w ∧ x.two = d.twoD := by
  cases h with
  | one xs => exact ⟨_, rfl, rfl, rfl, ⟨one_pos, by simp, fun _ => rfl⟩, rfl⟩
  | two w rows hw h => exact ⟨_, rfl, rfl, rfl, ⟨hw, h, fun h => by cases h⟩, rfl⟩

theorem vectorData_arr {data : List PyData} {vars : List (List (List Int))} (h : VectorData data vars) {N : Nat}
    (hl : ∀ v ∈ vars, v.length = N) :
    ∃ xs : List IArr, data.mapM PyData.toIArr = some xs ∧ xs.map IArr.rows = vars ∧ ArrAligned N xs ∧
      xs.map IArr.two = data.map PyData.twoD := by
  induction h with
  | nil => exact ⟨[], rfl, rfl, ⟨by simp, by simp⟩, rfl⟩
  | cons hd htl ih =>
    obtain ⟨w, hw⟩ := hd
    obtain ⟨x, e1, -, e3, e4, e5⟩ := intVectors_arr hw
    obtain ⟨xs, f1, f2, f3, f4⟩ := ih (fun v hv => hl v (List.mem_cons_of_mem _ hv))
    refine ⟨x :: xs, by simp [List.mapM_cons, e1, f1], by simp [e3, f2], ⟨?_, ?_⟩, by simp [e5, f4]⟩
    · intro v hv
      rcases List.mem_cons.1 hv with rfl | hv
      · rw [e3]; exact hl _ (List.mem_cons_self ..)
      · exact f3.len v hv
    · intro v hv
      rcases List.mem_cons.1 hv with rfl | hv
      · exact ⟨w, e4⟩
      · exact f3.wide v hv

theorem vectorData_length {data : List PyData} {vars : List (List (List Int))} (h : VectorData data vars) : data.length = vars.length :=
  h.length_eq

/-- **C90** `im.mutual_information(x, y, …)` with one of the six parameter-free bias-corrected estimators: `Σ Ĥ(Xᵢ) − Ĥ(X₁, X₂, …)` where a
value is a whole vector. -/
theorem C90_mi_bias {f : Fam} {m : Method} (hf : FamMethod f m) (h : Call W .mi f a kw b) (hb : b.Valid) (hc : cond.isVal = false)
    (hp : Plain kw) {data : List PyData} {vars : List (List (List Int))} (hd : VectorData data vars) (N : Nat) (hN : 0 < N)
    (h2 : 2 ≤ data.length) (hl : ∀ v ∈ vars, v.length = N) :
    imMI W.vec data a cond kw = .ok (((vars.map (fun v => m.value v)).sum - m.value (rows N vars)) / b.ln) := by
  obtain ⟨xs, ex, rfl, ha, -⟩ := vectorData_arr hd hl
  have hn : (kwOr kw "normalize" (.bool false)).toBool = some false := by rw [hp.normalize]; rfl
  have ho : (kwOr kw "offset" (.int 0)).toOptInt = some (some 0) := by rw [hp.offset]; rfl
  have h2' : 2 ≤ xs.length := by rw [vectorData_length hd] at h2; simpa using h2
  have key : ∀ (c : BiasClass) (m : Method), c.Means m → m.Defined (rows N (xs.map IArr.rows)) → biasMIArr c xs (some 0) false b =
      .ok ((((xs.map IArr.rows).map (fun v => m.value v)).sum - m.value (rows N (xs.map IArr.rows))) / b.ln) := fun c m hcm hdd => by
    rw [(arr_bias_mi hcm hN h2' ha hb).1 hdd, List.map_map]; rfl
  cases hf with
  | grassberger => rw [← key _ _ .grassberger trivial]; exact e2e_ami_grassberger hc h.name h2 h.accepted hn ho h.base ex rfl
  | chaoShen => rw [← key _ _ .chaoShen trivial]; exact e2e_ami_chaoShen hc h.name h2 h.accepted hn ho h.base ex rfl
  | chaoWangJost => rw [← key _ _ .chaoWangJost trivial]; exact e2e_ami_chaoWangJost hc h.name h2 h.accepted hn ho h.base ex rfl
  | shrink => rw [← key _ _ .shrink trivial]; exact e2e_ami_shrink hc h.name h2 h.accepted hn ho h.base ex rfl
  | zhang => rw [← key _ _ .zhang trivial]; exact e2e_ami_zhang hc h.name h2 h.accepted hn ho h.base ex rfl
  | bonachela => rw [← key _ _ .bonachela trivial]; exact e2e_ami_bonachela hc h.name h2 h.accepted hn ho h.base ex rfl

/-- **C90** the Bayesian estimator. -/
theorem C90_mi_bayes (al : AlphaArg) (K : Option PyArg) {m : Method} (hme : (BiasClass.bayes al K).Means m)
    (h : Call W .mi .bayes a kw b) (hb : b.Valid) (h1 : (kw "alpha").bind PyVal.toAlpha = some al)
    (h3 : (kwOr kw "K" .none).toOptArg = some K) (hc : cond.isVal = false)
    (hp : Plain kw) {data : List PyData} {vars : List (List (List Int))} (hd : VectorData data vars) (N : Nat) (hN : 0 < N)
    (h2 : 2 ≤ data.length) (hl : ∀ v ∈ vars, v.length = N) :
    imMI W.vec data a cond kw = .ok (((vars.map (fun v => m.value v)).sum - m.value (rows N vars)) / b.ln) := by
  obtain ⟨xs, ex, rfl, ha, -⟩ := vectorData_arr hd hl
  have h2' : 2 ≤ xs.length := by rw [vectorData_length hd] at h2; simpa using h2
  rw [e2e_ami_bayes hc h.name h2 h.accepted h1 h3 (nm := false) (by rw [hp.normalize]; rfl) (o := some 0) (by rw [hp.offset]; rfl) h.base ex rfl,
    (arr_bias_mi hme hN h2' ha hb).1 (by cases hme <;> trivial), List.map_map]
  rfl

/-- **C90** ANSB: finite exactly if some joint vector repeats. -/
theorem C90_mi_ansb (h : Call W .mi .ansb a kw b) (hb : b.Valid) (u : ℝ) (hu : 0 ≤ u)
    (h1 : (kwOr kw "undersampled" (.num (1 / 10))).toNum = some u) (hc : cond.isVal = false)
    (hp : Plain kw) {data : List PyData} {vars : List (List (List Int))} (hd : VectorData data vars) (N : Nat) (hN : 0 < N)
    (h2 : 2 ≤ data.length) (hl : ∀ v ∈ vars, v.length = N) :
    (¬ (rows N vars).Nodup → imMI W.vec data a cond kw =
      .ok (((vars.map (fun v => Method.ansb.value v)).sum - Method.ansb.value (rows N vars)) / b.ln)) ∧
    ((rows N vars).Nodup → imMI W.vec data a cond kw = .error .nonFinite) := by
  obtain ⟨xs, ex, rfl, ha, -⟩ := vectorData_arr hd hl
  have h2' : 2 ≤ xs.length := by rw [vectorData_length hd] at h2; simpa using h2
  rw [e2e_ami_ansb hc h.name h2 h.accepted h1 (nm := false) (by rw [hp.normalize]; rfl) (o := some 0) (by rw [hp.offset]; rfl) h.base ex rfl,
    List.map_map]
  have := arr_bias_mi (.ansb hu) hN h2' ha hb
  exact ⟨fun hn => this.1 hn, fun hn => this.2 (not_not.2 hn)⟩

/-- **C90** NSB. -/
theorem C90_mi_nsb (h : Call W .mi .nsb a kw b) (hb : b.Valid) (K : Option Nat)
    (hK : kwOr kw "K" .none = (match K with | none => .none | some k => .int k)) (hK0 : ∀ k, K = some k → 0 < k) (hc : cond.isVal = false)
    (hp : Plain kw) {data : List PyData} {vars : List (List (List Int))} (hd : VectorData data vars) (N : Nat) (hN : 0 < N)
    (h2 : 2 ≤ data.length) (hl : ∀ v ∈ vars, v.length = N) :
    let ok := (∀ v ∈ vars, Nsb.Defined v K) ∧ Nsb.Defined (rows N vars) K
    (ok → imMI W.vec data a cond kw =
      .ok (((vars.map (fun v => Nsb.value v K)).sum - Nsb.value (rows N vars) K) / b.ln)) ∧
    (¬ ok → imMI W.vec data a cond kw = .error .nonFinite) := by
  obtain ⟨xs, ex, rfl, ha, -⟩ := vectorData_arr hd hl
  have h2' : 2 ≤ xs.length := by rw [vectorData_length hd] at h2; simpa using h2
  rw [e2e_ami_nsb hc h.name h2 h.accepted (K := nsbArg K) (by rw [hK]; cases K <;> rfl) (nm := false) (by rw [hp.normalize]; rfl) (o := some 0)
    (by rw [hp.offset]; rfl) h.base ex rfl, List.map_map, List.forall_mem_map]
  exact arr_nsb_mi W.find hK0 hN h2' ha hb

/-- **C90** `im.conditional_mutual_information(x, y, …, cond=z)`: `Σ Ĥ(Xᵢ, Z) − Ĥ(X₁, X₂, …, Z) − Ĥ(Z)`. -/
theorem C90_cmi_bias {f : Fam} {m : Method} (hf : FamMethod f m) (h : Call W .cmi f a kw b) (hb : b.Valid) (hp : Plain kw)
    {data : List PyData} {vars : List (List (List Int))} (hd : VectorData data vars) {dz : PyData} {wz : Nat} {z : List (List Int)}
    (hz : IntVectors dz wz z) (hN : 0 < z.length) (h2 : 2 ≤ data.length) (hl : ∀ v ∈ vars, v.length = z.length) :
    CmiIs W.vec data a dz kw (.ok (((vars.map (fun v => m.value (v.zip z))).sum - m.value ((rows z.length vars).zip z) -
      m.value z) / b.ln)) := by
  obtain ⟨xs, ex, rfl, ha, -⟩ := vectorData_arr hd hl
  obtain ⟨zz, -, ez, rfl, hw, -⟩ := intVectors_arr hz
  have haz : ArrAligned zz.rows.length [zz] := ⟨by simp, fun v hv => ⟨wz, by rw [List.mem_singleton.1 hv]; exact hw⟩⟩
  have hn : (kwOr kw "normalize" (.bool false)).toBool = some false := by rw [hp.normalize]; rfl
  have ho : (kwOr kw "offset" (.int 0)).toOptInt = some (some 0) := by rw [hp.offset]; rfl
  have h2' : 2 ≤ xs.length := by rw [vectorData_length hd] at h2; simpa using h2
  have key : ∀ (c : BiasClass) (m : Method), c.Means m → m.Defined ((rows zz.rows.length (xs.map IArr.rows)).zip zz.rows) →
      biasCMIArr c xs zz (some 0) false b = .ok ((((xs.map IArr.rows).map (fun v => m.value (v.zip zz.rows))).sum -
        m.value ((rows zz.rows.length (xs.map IArr.rows)).zip zz.rows) - m.value zz.rows) / b.ln) := fun c m hcm hdd => by
    rw [(arr_bias_cmi hcm hN h2' ha haz hb).1 hdd, List.map_map]; rfl
  unfold CmiIs
  cases hf with
  | grassberger => rw [← key _ _ .grassberger trivial]; exact e2e_acmi_grassberger h.name h2 h.accepted hn ho h.base ex ez rfl
  | chaoShen => rw [← key _ _ .chaoShen trivial]; exact e2e_acmi_chaoShen h.name h2 h.accepted hn ho h.base ex ez rfl
  | chaoWangJost => rw [← key _ _ .chaoWangJost trivial]; exact e2e_acmi_chaoWangJost h.name h2 h.accepted hn ho h.base ex ez rfl
  | shrink => rw [← key _ _ .shrink trivial]; exact e2e_acmi_shrink h.name h2 h.accepted hn ho h.base ex ez rfl
  | zhang => rw [← key _ _ .zhang trivial]; exact e2e_acmi_zhang h.name h2 h.accepted hn ho h.base ex ez rfl
  | bonachela => rw [← key _ _ .bonachela trivial]; exact e2e_acmi_bonachela h.name h2 h.accepted hn ho h.base ex ez rfl

/-- **C90** the Bayesian estimator. -/
theorem C90_cmi_bayes (al : AlphaArg) (K : Option PyArg) {m : Method} (hme : (BiasClass.bayes al K).Means m)
    (h : Call W .cmi .bayes a kw b) (hb : b.Valid) (h1 : (kw "alpha").bind PyVal.toAlpha = some al)
    (h3 : (kwOr kw "K" .none).toOptArg = some K) (hp : Plain kw)
    {data : List PyData} {vars : List (List (List Int))} (hd : VectorData data vars) {dz : PyData} {wz : Nat} {z : List (List Int)}
    (hz : IntVectors dz wz z) (hN : 0 < z.length) (h2 : 2 ≤ data.length) (hl : ∀ v ∈ vars, v.length = z.length) :
    CmiIs W.vec data a dz kw (.ok (((vars.map (fun v => m.value (v.zip z))).sum - m.value ((rows z.length vars).zip z) -
      m.value z) / b.ln)) := by
  obtain ⟨xs, ex, rfl, ha, -⟩ := vectorData_arr hd hl
  obtain ⟨zz, -, ez, rfl, hw, -⟩ := intVectors_arr hz
  have haz : ArrAligned zz.rows.length [zz] := ⟨by simp, fun v hv => ⟨wz, by rw [List.mem_singleton.1 hv]; exact hw⟩⟩
  have h2' : 2 ≤ xs.length := by rw [vectorData_length hd] at h2; simpa using h2
  have e := e2e_acmi_bayes h.name h2 h.accepted h1 h3 (nm := false) (by rw [hp.normalize]; rfl) (o := some 0) (by rw [hp.offset]; rfl) h.base ex ez rfl
  rw [(arr_bias_cmi hme hN h2' ha haz hb).1 (by cases hme <;> trivial)] at e
  rw [List.map_map]
  exact e

/-- **C90** ANSB: finite exactly if some joint vector (with the condition) repeats. -/
theorem C90_cmi_ansb (h : Call W .cmi .ansb a kw b) (hb : b.Valid) (u : ℝ) (hu : 0 ≤ u)
    (h1 : (kwOr kw "undersampled" (.num (1 / 10))).toNum = some u) (hp : Plain kw)
    {data : List PyData} {vars : List (List (List Int))} (hd : VectorData data vars) {dz : PyData} {wz : Nat} {z : List (List Int)}
    (hz : IntVectors dz wz z) (hN : 0 < z.length) (h2 : 2 ≤ data.length) (hl : ∀ v ∈ vars, v.length = z.length) :
    (¬ ((rows z.length vars).zip z).Nodup → CmiIs W.vec data a dz kw (.ok (((vars.map (fun v => Method.ansb.value (v.zip z))).sum -
      Method.ansb.value ((rows z.length vars).zip z) - Method.ansb.value z) / b.ln))) ∧
    (((rows z.length vars).zip z).Nodup → CmiIs W.vec data a dz kw (.error .nonFinite)) := by
  obtain ⟨xs, ex, rfl, ha, -⟩ := vectorData_arr hd hl
  obtain ⟨zz, -, ez, rfl, hw, -⟩ := intVectors_arr hz
  have haz : ArrAligned zz.rows.length [zz] := ⟨by simp, fun v hv => ⟨wz, by rw [List.mem_singleton.1 hv]; exact hw⟩⟩
  have h2' : 2 ≤ xs.length := by rw [vectorData_length hd] at h2; simpa using h2
  have e := e2e_acmi_ansb h.name h2 h.accepted h1 (nm := false) (by rw [hp.normalize]; rfl) (o := some 0) (by rw [hp.offset]; rfl) h.base ex ez rfl
  have k := arr_bias_cmi (.ansb hu) hN h2' ha haz hb
  rw [List.map_map]
  exact ⟨fun hn => by rw [k.1 hn] at e; exact e, fun hn => by rw [k.2 (not_not.2 hn)] at e; exact e⟩

/-- **C90** NSB. -/
theorem C90_cmi_nsb (h : Call W .cmi .nsb a kw b) (hb : b.Valid) (K : Option Nat)
    (hK : kwOr kw "K" .none = (match K with | none => .none | some k => .int k)) (hK0 : ∀ k, K = some k → 0 < k) (hp : Plain kw)
    {data : List PyData} {vars : List (List (List Int))} (hd : VectorData data vars) {dz : PyData} {wz : Nat} {z : List (List Int)}
    (hz : IntVectors dz wz z) (hN : 0 < z.length) (h2 : 2 ≤ data.length) (hl : ∀ v ∈ vars, v.length = z.length) :
    let ok := (∀ v ∈ vars, Nsb.Defined (v.zip z) K) ∧ Nsb.Defined ((rows z.length vars).zip z) K ∧ Nsb.Defined z K
    (ok → CmiIs W.vec data a dz kw (.ok (((vars.map (fun v => Nsb.value (v.zip z) K)).sum -
      Nsb.value ((rows z.length vars).zip z) K - Nsb.value z K) / b.ln))) ∧
    (¬ ok → CmiIs W.vec data a dz kw (.error .nonFinite)) := by
  obtain ⟨xs, ex, rfl, ha, -⟩ := vectorData_arr hd hl
  obtain ⟨zz, -, ez, rfl, hw, -⟩ := intVectors_arr hz
  have haz : ArrAligned zz.rows.length [zz] := ⟨by simp, fun v hv => ⟨wz, by rw [List.mem_singleton.1 hv]; exact hw⟩⟩
  have h2' : 2 ≤ xs.length := by rw [vectorData_length hd] at h2; simpa using h2
  have e := e2e_acmi_nsb h.name h2 h.accepted (K := nsbArg K) (by rw [hK]; cases K <;> rfl) (nm := false) (by rw [hp.normalize]; rfl) (o := some 0)
    (by rw [hp.offset]; rfl) h.base ex ez rfl
  have k := arr_nsb_cmi W.find hK0 hN h2' ha haz hb
  rw [List.map_map, List.forall_mem_map]
  exact ⟨fun hn => by rw [k.1 hn] at e; exact e, fun hn => by rw [k.2 hn] at e; exact e⟩

/-- **C90** `normalize=True` is a ValueError if one of the arrays has two dimensions. -/
theorem C90_mi_normalize {f : Fam} {m : Method} (hf : FamMethod f m) (h : Call W .mi f a kw b) (hc : cond.isVal = false)
    (ho : kwOr kw "offset" (.int 0) = .int 0) (hn : kwOr kw "normalize" (.bool false) = .bool true)
    {data : List PyData} {vars : List (List (List Int))} (hd : VectorData data vars) (N : Nat)
    (h2 : 2 ≤ data.length) (hl : ∀ v ∈ vars, v.length = N) (ht : ∃ d ∈ data, d.twoD = true) :
    imMI W.vec data a cond kw = .error .valueError := by
  obtain ⟨xs, ex, rfl, ha, e2⟩ := vectorData_arr hd hl
  have hn : (kwOr kw "normalize" (.bool false)).toBool = some true := by rw [hn]; rfl
  have ho : (kwOr kw "offset" (.int 0)).toOptInt = some (some 0) := by rw [ho]; rfl
  have h2' : 2 ≤ xs.length := by rw [vectorData_length hd] at h2; simpa using h2
  have hx : (true && xs.all (fun x => !x.two)) = false := by
    obtain ⟨d, hdm, hd2⟩ := ht
    have : true ∈ xs.map IArr.two := by rw [e2]; exact List.mem_map.2 ⟨d, hdm, hd2⟩
    obtain ⟨x, hx, hxt⟩ := List.mem_map.1 this
    simp only [Bool.true_and, List.all_eq_false]
    exact ⟨x, hx, by simp [hxt]⟩
  have key : ∀ c : BiasClass, biasMIArr c xs (some 0) true b = .error .valueError := fun c => by
    simp only [biasMIArr, arr_miInit h2' ha, normCheck, bind, Except.bind, if_true]
  cases hf with
  | grassberger => rw [← key]; exact e2e_ami_grassberger hc h.name h2 h.accepted hn ho h.base ex hx
  | chaoShen => rw [← key]; exact e2e_ami_chaoShen hc h.name h2 h.accepted hn ho h.base ex hx
  | chaoWangJost => rw [← key]; exact e2e_ami_chaoWangJost hc h.name h2 h.accepted hn ho h.base ex hx
  | shrink => rw [← key]; exact e2e_ami_shrink hc h.name h2 h.accepted hn ho h.base ex hx
  | zhang => rw [← key]; exact e2e_ami_zhang hc h.name h2 h.accepted hn ho h.base ex hx
  | bonachela => rw [← key]; exact e2e_ami_bonachela hc h.name h2 h.accepted hn ho h.base ex hx

/-- **C90** likewise for the conditional mutual information, for the first two variables and the condition. -/
theorem C90_cmi_normalize {f : Fam} {m : Method} (hf : FamMethod f m) (h : Call W .cmi f a kw b)
    (ho : kwOr kw "offset" (.int 0) = .int 0) (hn : kwOr kw "normalize" (.bool false) = .bool true)
    {dx dy : PyData} {data : List PyData} {vars : List (List (List Int))} (hd : VectorData (dx :: dy :: data) vars) {dz : PyData} {wz : Nat}
    {z : List (List Int)} (hz : IntVectors dz wz z) (hl : ∀ v ∈ vars, v.length = z.length)
    (ht : dx.twoD = true ∨ dy.twoD = true ∨ dz.twoD = true) :
    CmiIs W.vec (dx :: dy :: data) a dz kw (.error .valueError) := by
  obtain ⟨xs, ex, rfl, ha, e2⟩ := vectorData_arr hd hl
  obtain ⟨zz, -, ez, rfl, hw, et⟩ := intVectors_arr hz
  have haz : ArrAligned zz.rows.length [zz] := ⟨by simp, fun v hv => ⟨wz, by rw [List.mem_singleton.1 hv]; exact hw⟩⟩
  have hn : (kwOr kw "normalize" (.bool false)).toBool = some true := by rw [hn]; rfl
  have ho : (kwOr kw "offset" (.int 0)).toOptInt = some (some 0) := by rw [ho]; rfl
  have h2 : 2 ≤ (dx :: dy :: data).length := by simp
  have h2' : 2 ≤ xs.length := by rw [vectorData_length hd] at h2; simpa using h2
  have hx : (true && (xs.take 2 ++ [zz]).all (fun x => !x.two)) = false := by
    match xs, h2', e2 with
    | x :: y :: rest, _, e2 =>
      simp only [List.map_cons, List.cons.injEq] at e2
      obtain ⟨q1, q2, -⟩ := e2
      rw [← q1, ← q2, ← et] at ht
      rcases ht with ht | ht | ht <;> simp [ht]
  have key : ∀ c : BiasClass, biasCMIArr c xs zz (some 0) true b = .error .valueError := fun c => by
    simp only [biasCMIArr, arr_cmiInit h2' ha haz, normCheck, bind, Except.bind, if_true]
  unfold CmiIs
  cases hf with
  | grassberger => rw [← key]; exact e2e_acmi_grassberger h.name h2 h.accepted hn ho h.base ex ez hx
  | chaoShen => rw [← key]; exact e2e_acmi_chaoShen h.name h2 h.accepted hn ho h.base ex ez hx
  | chaoWangJost => rw [← key]; exact e2e_acmi_chaoWangJost h.name h2 h.accepted hn ho h.base ex ez hx
  | shrink => rw [← key]; exact e2e_acmi_shrink h.name h2 h.accepted hn ho h.base ex ez hx
  | zhang => rw [← key]; exact e2e_acmi_zhang h.name h2 h.accepted hn ho h.base ex ez hx
  | bonachela => rw [← key]; exact e2e_acmi_bonachela h.name h2 h.accepted hn ho h.base ex ez hx

/-- **C90** a tuple of conditions is read as the array whose *rows* are the series of the tuple, so a tuple of `n` series is accepted only if there
are `n` samples (and is transposed then, see the next theorem); otherwise ValueError. -/
theorem C90_cmi_bias_tuple {f : Fam} {m : Method} (hf : FamMethod f m) (h : Call W .cmi f a kw b) (hp : Plain kw)
    {data : List PyData} {vars : List (List (List Int))} (hd : VectorData data vars) (N : Nat) (h2 : 2 ≤ data.length)
    (hl : ∀ v ∈ vars, v.length = N) (cols : List (List Int)) (hne : cols.length ≠ N) :
    CmiIs W.vec data a (.intTup cols) kw (.error .valueError) := by
  obtain ⟨xs, ex, rfl, ha, e2⟩ := vectorData_arr hd hl
  have hn : (kwOr kw "normalize" (.bool false)).toBool = some false := by rw [hp.normalize]; rfl
  have ho : (kwOr kw "offset" (.int 0)).toOptInt = some (some 0) := by rw [hp.offset]; rfl
  have h2' : 2 ≤ xs.length := by rw [vectorData_length hd] at h2; simpa using h2
  by_cases hr : cols.all (fun c => decide (c.length = (cols.headD []).length)) = true
  · have ez : PyData.toCondIArr (.intTup cols) = some (.ok ⟨true, cols⟩) := by simp only [PyData.toCondIArr, hr, if_true]
    have key : ∀ c : BiasClass, biasCMIArr c xs ⟨true, cols⟩ (some 0) false b = .error .valueError := fun c => by
      have : cmiInit (xs.map IArr.rows) (some cols) (some 0) = .error .valueError := by
        match xs, h2', ha with
        | x :: y :: rest, _, ha =>
          have hx := ha.len x (by simp)
          simp only [cmiInit, List.map_cons, true_or, not_true, if_false]
          rw [if_pos (Or.inr (by rw [hx]; exact fun e => hne e.symm))]
      simp only [biasCMIArr, this, bind, Except.bind]
    unfold CmiIs
    cases hf with
    | grassberger => rw [← key]; exact e2e_acmi_grassberger h.name h2 h.accepted hn ho h.base ex ez rfl
    | chaoShen => rw [← key]; exact e2e_acmi_chaoShen h.name h2 h.accepted hn ho h.base ex ez rfl
    | chaoWangJost => rw [← key]; exact e2e_acmi_chaoWangJost h.name h2 h.accepted hn ho h.base ex ez rfl
    | shrink => rw [← key]; exact e2e_acmi_shrink h.name h2 h.accepted hn ho h.base ex ez rfl
    | zhang => rw [← key]; exact e2e_acmi_zhang h.name h2 h.accepted hn ho h.base ex ez rfl
    | bonachela => rw [← key]; exact e2e_acmi_bonachela h.name h2 h.accepted hn ho h.base ex ez rfl
  · have ez : PyData.toCondIArr (.intTup cols) = some (.error .valueError) := by simp only [PyData.toCondIArr, hr]; rfl
    unfold CmiIs
    cases hf with
    | grassberger => exact e2e_acmi_ragged_grassberger h.name h2 h.accepted hn ho h.base ex ez
    | chaoShen => exact e2e_acmi_ragged_chaoShen h.name h2 h.accepted hn ho h.base ex ez
    | chaoWangJost => exact e2e_acmi_ragged_chaoWangJost h.name h2 h.accepted hn ho h.base ex ez
    | shrink => exact e2e_acmi_ragged_shrink h.name h2 h.accepted hn ho h.base ex ez
    | zhang => exact e2e_acmi_ragged_zhang h.name h2 h.accepted hn ho h.base ex ez
    | bonachela => exact e2e_acmi_ragged_bonachela h.name h2 h.accepted hn ho h.base ex ez

/-- **C90** `n` series of `n` samples as a tuple of conditions: the result is that of the array whose row `t` — the condition of sample `t` — is
the `t`-th series, not the vector of the `t`-th values. -/
theorem C90_cmi_bias_tuple_square {f : Fam} {m : Method} (hf : FamMethod f m) (h : Call W .cmi f a kw b) (hb : b.Valid) (hp : Plain kw)
    {data : List PyData} {vars : List (List (List Int))} (hd : VectorData data vars) (cols : List (List Int)) (hN : 0 < cols.length)
    (h2 : 2 ≤ data.length) (hl : ∀ v ∈ vars, v.length = cols.length) (hc : ∀ c ∈ cols, c.length = cols.length) :
    CmiIs W.vec data a (.intTup cols) kw (.ok (((vars.map (fun v => m.value (v.zip cols))).sum - m.value ((rows cols.length vars).zip cols) -
      m.value cols) / b.ln)) := by
  have hz : IntVectors (.imat cols.length cols) cols.length cols := .two _ _ hN hc
  obtain ⟨xs, ex, rfl, ha, -⟩ := vectorData_arr hd hl
  have hw : (IArr.mk true cols).Wide cols.length := ⟨hN, hc, fun h => by cases h⟩
  have haz : ArrAligned cols.length [IArr.mk true cols] := ⟨by simp, fun v hv => ⟨cols.length, by rw [List.mem_singleton.1 hv]; exact hw⟩⟩
  have ez : PyData.toCondIArr (.intTup cols) = some (.ok ⟨true, cols⟩) := by
    have hr : cols.all (fun c => decide (c.length = (cols.headD []).length)) = true := by
      cases cols with
      | nil => rfl
      | cons c cs =>
        simp only [List.all_eq_true, decide_eq_true_eq]
        intro x hx
        rw [hc x hx, List.headD_cons, hc c (by simp)]
    simp only [PyData.toCondIArr, hr, if_true]
  have hn : (kwOr kw "normalize" (.bool false)).toBool = some false := by rw [hp.normalize]; rfl
  have ho : (kwOr kw "offset" (.int 0)).toOptInt = some (some 0) := by rw [hp.offset]; rfl
  have h2' : 2 ≤ xs.length := by rw [vectorData_length hd] at h2; simpa using h2
  have key : ∀ (c : BiasClass) (m : Method), c.Means m → m.Defined ((rows cols.length (xs.map IArr.rows)).zip cols) →
      biasCMIArr c xs ⟨true, cols⟩ (some 0) false b = .ok ((((xs.map IArr.rows).map (fun v => m.value (v.zip cols))).sum -
        m.value ((rows cols.length (xs.map IArr.rows)).zip cols) - m.value cols) / b.ln) := fun c m hcm hdd => by
    rw [(arr_bias_cmi hcm hN h2' ha haz hb).1 hdd, List.map_map]; rfl
  unfold CmiIs
  cases hf with
  | grassberger => rw [← key _ _ .grassberger trivial]; exact e2e_acmi_grassberger h.name h2 h.accepted hn ho h.base ex ez rfl
  | chaoShen => rw [← key _ _ .chaoShen trivial]; exact e2e_acmi_chaoShen h.name h2 h.accepted hn ho h.base ex ez rfl
  | chaoWangJost => rw [← key _ _ .chaoWangJost trivial]; exact e2e_acmi_chaoWangJost h.name h2 h.accepted hn ho h.base ex ez rfl
  | shrink => rw [← key _ _ .shrink trivial]; exact e2e_acmi_shrink h.name h2 h.accepted hn ho h.base ex ez rfl
  | zhang => rw [← key _ _ .zhang trivial]; exact e2e_acmi_zhang h.name h2 h.accepted hn ho h.base ex ez rfl
  | bonachela => rw [← key _ _ .bonachela trivial]; exact e2e_acmi_bonachela h.name h2 h.accepted hn ho h.base ex ez rfl

theorem e2e_vcmi2_discrete {W : World} {data : List PyData} {a : PyName} {kw : Kw} {dz : PyData} (ha : Names W.lower .cmi a .discrete) (hd : 2 ≤ data.length) 
    (h4 : Only ["offset", "base", "seed"] kw)
    {o : Option Int} {b : Base} 
    (h_offset : (kwOr kw "offset" (.int 0)).toOptInt = some o)
    (h_base : (kwOr kw "base" (W.b0)).toBase = some b)
    (hi : data.mapM PyData.toInts = none) {xs : List (List (List Int))} (hx : data.mapM PyData.toIntRows = some xs) {z : CondArg} (hz : PyData.toCondArg dz = some z) :
    imCMI W.vec data a (.val dz) kw = discreteCMI xs (some z) o b false ∧
      imMI W.vec data a (.val dz) kw = discreteCMI xs (some z) o b false := by
  have hv : ∀ p : Kw, (∀ r ∈ requiredKw .cmi .discrete, p r = kw r) →
      (∀ o ∈ optionalKw W.b0 ⟨.cmi, .discrete⟩, p o.1 = some (kwOr kw o.1 o.2)) →
      Est.result W.vec ⟨⟨.cmi, .discrete⟩, data, (some dz), p⟩ = discreteCMI xs (some z) o b false := by
    intro p hr ho
    have g_offset : Est.get ⟨⟨.cmi, .discrete⟩, data, (some dz), p⟩ "offset" PyVal.toOptInt = some o := by
      show (p "offset").bind _ = _
      rw [ho ("offset", .int 0) (by simp [optionalKw, ownKw, normalizeKw, commonKw, defaultNoise])]; exact h_offset
    have g_base : Est.get ⟨⟨.cmi, .discrete⟩, data, (some dz), p⟩ "base" PyVal.toBase = some b := by
      show (p "base").bind _ = _
      rw [ho ("base", W.b0) (by simp [optionalKw, ownKw, normalizeKw, commonKw, defaultNoise])]; exact h_base
    exact result_vec (by simp (maxSteps := 2000000) only [Est.vecVal, Est.cmiVec, Option.bind_eq_bind, Option.bind_some, g_base, g_offset, hi, hx, hz])
  obtain ⟨p, e, e', hr, ho⟩ := im_cmi_eval W.vec data a kw dz ha hd (by simp [requiredKw]) h4
  rw [e, e', hv p hr ho]
  exact ⟨rfl, rfl⟩

theorem e2e_vcmi2_millerMadow {W : World} {data : List PyData} {a : PyName} {kw : Kw} {dz : PyData} (ha : Names W.lower .cmi a .millerMadow) (hd : 2 ≤ data.length) 
    (h4 : Only ["offset", "base", "seed"] kw)
    {o : Option Int} {b : Base} 
    (h_offset : (kwOr kw "offset" (.int 0)).toOptInt = some o)
    (h_base : (kwOr kw "base" (W.b0)).toBase = some b)
    (hi : data.mapM PyData.toInts = none) {xs : List (List (List Int))} (hx : data.mapM PyData.toIntRows = some xs) {z : CondArg} (hz : PyData.toCondArg dz = some z) :
    imCMI W.vec data a (.val dz) kw = discreteCMI xs (some z) o b true ∧
      imMI W.vec data a (.val dz) kw = discreteCMI xs (some z) o b true := by
  have hv : ∀ p : Kw, (∀ r ∈ requiredKw .cmi .millerMadow, p r = kw r) →
      (∀ o ∈ optionalKw W.b0 ⟨.cmi, .millerMadow⟩, p o.1 = some (kwOr kw o.1 o.2)) →
      Est.result W.vec ⟨⟨.cmi, .millerMadow⟩, data, (some dz), p⟩ = discreteCMI xs (some z) o b true := by
    intro p hr ho
    have g_offset : Est.get ⟨⟨.cmi, .millerMadow⟩, data, (some dz), p⟩ "offset" PyVal.toOptInt = some o := by
      show (p "offset").bind _ = _
      rw [ho ("offset", .int 0) (by simp [optionalKw, ownKw, normalizeKw, commonKw, defaultNoise])]; exact h_offset
    have g_base : Est.get ⟨⟨.cmi, .millerMadow⟩, data, (some dz), p⟩ "base" PyVal.toBase = some b := by
      show (p "base").bind _ = _
      rw [ho ("base", W.b0) (by simp [optionalKw, ownKw, normalizeKw, commonKw, defaultNoise])]; exact h_base
    exact result_vec (by simp (maxSteps := 2000000) only [Est.vecVal, Est.cmiVec, Option.bind_eq_bind, Option.bind_some, g_base, g_offset, hi, hx, hz])
  obtain ⟨p, e, e', hr, ho⟩ := im_cmi_eval W.vec data a kw dz ha hd (by simp [requiredKw]) h4
  rw [e, e', hv p hr ho]
  exact ⟨rfl, rfl⟩

theorem condition_reduce {dz : PyData} {z : List (List Int)} (h : Condition dz z) :
    ∃ cz z0, dz.toCondArg = some cz ∧ condReduce false cz = .ok z0 ∧ z0.length = z.length ∧
      ∀ xs ys : List (List Int), xs.length = ys.length → ys.length = z.length → Spec.cmi xs ys z0 = Spec.cmi xs ys z := by
  have codes : ∀ z : List (List Int), ∀ xs ys : List (List Int), xs.length = ys.length → ys.length = z.length →
      Spec.cmi xs ys (rowCodes z) = Spec.cmi xs ys z := fun z xs ys h1 h2 => by
    convert cmi_cond_congr xs ys z (Int.ofNat ∘ npPos z) (fun u hu v hv e => (rowCodes_inj z hu hv).1 e) h1 h2 using 2
    exact rowCodes_eq z
  cases h with
  | array hz =>
    cases hz with
    | one zs =>
      refine ⟨_, zs, rfl, rfl, by simp, fun xs ys h1 h2 => ?_⟩
      exact (cmi_cond_congr xs ys zs (fun x => [x]) (by simp) h1 (by simpa using h2)).symm
    | two w zs hw hr => exact ⟨_, rowCodes z, rfl, rfl, rowCodes_length _, codes z⟩
  | tuple N cols hne hl =>
    refine ⟨_, rowCodes (rows N cols), rfl, ?_, rowCodes_length _, codes _⟩
    simp only [condReduce, reduceJointSpace, columnStack_ok hne hl]; rfl

theorem mapM_int_rows {dx dy : PyData} {wx wy : Nat} {xs ys : List (List Int)} (hx : IntVectors dx wx xs) (hy : IntVectors dy wy ys) :
    [dx, dy].mapM PyData.toIntRows = some [xs, ys] := by
  simp [List.mapM_cons, (intVectors_rows hx).1, (intVectors_rows hy).1]

theorem toInts_of_twoD {d : PyData} (h : d.twoD = true) : d.toInts = none := by cases d <;> cases h <;> rfl

theorem mapM_ints_twoD {dx dy : PyData} (h : dx.twoD = true ∨ dy.twoD = true) : [dx, dy].mapM PyData.toInts = none := by
  simp only [List.mapM_cons, List.mapM_nil]
  rcases h with h | h
  · rw [toInts_of_twoD h]; rfl
  · rw [toInts_of_twoD h]; cases dx.toInts <;> rfl

/-- **C90** `im.conditional_mutual_information(x, y, cond=z)` of integer vectors (at least one of the variables an array of two dimensions; for
one-dimensional variables see `C90_cmi`), the condition an array of vectors or a tuple of series: `I(X; Y | Z)`. -/
theorem C90_cmi_vectors (h : Call W .cmi .discrete a kw b) (hb : b.Valid) (ho : kwOr kw "offset" (.int 0) = .int 0)
    {dx dy dz : PyData} {wx wy : Nat} {xs ys z : List (List Int)} (hx : IntVectors dx wx xs) (hy : IntVectors dy wy ys)
    (ht : dx.twoD = true ∨ dy.twoD = true) (hz : Condition dz z) (h1 : xs.length = ys.length) (h2 : xs.length = z.length)
    (hne : xs ≠ []) (hov : xs.length < 2 ^ 32) :
    CmiIs W.vec [dx, dy] a dz kw (.ok (Spec.cmi xs ys z / b.ln)) := by
  obtain ⟨cz, z0, ez, er, el, ev⟩ := condition_reduce hz
  have e := e2e_vcmi2_discrete h.name (by simp) h.accepted (o := some 0) (by rw [ho]; rfl) h.base (mapM_ints_twoD ht) (mapM_int_rows hx hy) ez
  have hov' : xs.length ^ 2 < 2 ^ 64 := by
    have : xs.length ^ 2 < (2 ^ 32) ^ 2 := Nat.pow_lt_pow_left hov (by norm_num)
    simpa using this
  rw [discreteCMI_eq (z := z0) (by simp) (by simp [← h1, el, h2]) er (Or.inl rfl), if_neg (by simp),
    cmiNdInt_pair_rows xs ys z0 h1 (by rw [el, ← h2, h1]) hne hov' hb, ev xs ys h1 (by rw [← h2, h1])] at e
  exact e

/-- **C90** Miller–Madow with a one-dimensional condition. -/
theorem C90_cmi_miller_madow_vectors (h : Call W .cmi .millerMadow a kw b) (hb : b.Valid) (ho : kwOr kw "offset" (.int 0) = .int 0)
    {dx dy : PyData} {wx wy : Nat} {xs ys : List (List Int)} {z : List Int} (hx : IntVectors dx wx xs) (hy : IntVectors dy wy ys)
    (ht : dx.twoD = true ∨ dy.twoD = true) (h1 : xs.length = ys.length) (h2 : xs.length = z.length)
    (hne : xs ≠ []) (hov : xs.length < 2 ^ 32) :
    CmiIs W.vec [dx, dy] a (.ints z) kw (.ok ((millerMadow (xs.zip z) + millerMadow (ys.zip z) - millerMadow (xs.zip (ys.zip z)) -
      millerMadow z) / b.ln)) := by
  have e := e2e_vcmi2_millerMadow h.name (by simp) h.accepted (o := some 0) (by rw [ho]; rfl) h.base (mapM_ints_twoD ht) (mapM_int_rows hx hy)
    (dz := .ints z) rfl
  have hov' : xs.length ^ 2 < 2 ^ 64 := by
    have : xs.length ^ 2 < (2 ^ 32) ^ 2 := Nat.pow_lt_pow_left hov (by norm_num)
    simpa using this
  rw [discreteCMI_eq (z := z) (by simp) (by simp [← h1, h2]) rfl (Or.inl rfl), if_pos rfl,
    cmiNdInt_pair_mm_rows xs ys z h1 (by rw [← h2, h1]) hne hov' hb, cmi_eq_entropies xs ys z h1 (by rw [← h2, h1])] at e
  have hv : (millerMadow (xs.zip z) + millerMadow (ys.zip z) - millerMadow (xs.zip (ys.zip z)) - millerMadow z) =
      (entropy (xs.zip z) + entropy (ys.zip z) - entropy (xs.zip (ys.zip z)) - entropy z) + (((xs.zip z).toFinset.card : ℝ) + (ys.zip z).toFinset.card
        - (xs.zip (ys.zip z)).toFinset.card - z.toFinset.card) / (2 * xs.length) := by
    simp only [millerMadow, List.length_zip, ← h1, ← h2, min_self]
    ring
  rw [hv]
  exact e

end Verif
