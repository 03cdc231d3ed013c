import Verif.Lemmas.EndToEndVec
import Verif.Lemmas.EndToEndMI
import Verif.Lemmas.EndToEndCMI

/-! # Lemmas: the calls of the bias-corrected mutual informations with arrays of one or two dimensions -/

set_option linter.unusedSimpArgs false
set_option linter.unusedVariables false

namespace Verif

open Spec

theorem e2e_ami_grassberger {W : World} {nm : Bool} {data : List PyData} {a : PyName} {kw : Kw} {cond : CondKw PyData} (hc : cond.isVal = false) (ha : Names W.lower .mi a .grassberger) (hd : 2 ≤ data.length) 
    (h4 : Only ["normalize", "offset", "base", "seed"] kw)
    {o : Option Int} {b : Base} 
    (h_normalize : (kwOr kw "normalize" (.bool false)).toBool = some nm)
    (h_offset : (kwOr kw "offset" (.int 0)).toOptInt = some o)
    (h_base : (kwOr kw "base" (W.b0)).toBase = some b)
    {xs : List IArr} (hx : data.mapM PyData.toIArr = some xs) (hnm : (nm && xs.all (fun x => !x.two)) = false) :
    imMI W.vec data a cond kw = biasMIArr .grassberger xs o nm b := by
  have hv : ∀ p : Kw, (∀ r ∈ requiredKw .mi .grassberger, p r = kw r) →
      (∀ o ∈ optionalKw W.b0 ⟨.mi, .grassberger⟩, p o.1 = some (kwOr kw o.1 o.2)) →
      Est.result W.vec ⟨⟨.mi, .grassberger⟩, data, none, p⟩ = biasMIArr .grassberger xs o nm b := by
    intro p hr ho
    have g_normalize : Est.get ⟨⟨.mi, .grassberger⟩, data, none, p⟩ "normalize" PyVal.toBool = some nm := by
      show (p "normalize").bind _ = _
      rw [ho ("normalize", .bool false) (by simp [optionalKw, ownKw, normalizeKw, commonKw, defaultNoise])]; exact h_normalize
    have g_offset : Est.get ⟨⟨.mi, .grassberger⟩, data, none, p⟩ "offset" PyVal.toOptInt = some o := by
      show (p "offset").bind _ = _
      rw [ho ("offset", .int 0) (by simp [optionalKw, ownKw, normalizeKw, commonKw, defaultNoise])]; exact h_offset
    have g_base : Est.get ⟨⟨.mi, .grassberger⟩, data, none, p⟩ "base" PyVal.toBase = some b := by
      show (p "base").bind _ = _
      rw [ho ("base", W.b0) (by simp [optionalKw, ownKw, normalizeKw, commonKw, defaultNoise])]; exact h_base
    refine result_vec ?_
    simp (maxSteps := 2000000) only [Est.vecVal, Est.miVec, Est.miArr, Option.bind_eq_bind, Option.bind_some, Option.bind_none, g_normalize, g_offset, g_base, hx, Est.bclass, hnm, Bool.false_eq_true, if_false]
  obtain ⟨p, e, hr, ho⟩ := im_mi_eval W.vec data a cond kw ha hc hd (by simp [requiredKw]) h4
  rw [e, hv p hr ho]

theorem e2e_acmi_grassberger {W : World} {nm : Bool} {data : List PyData} {a : PyName} {kw : Kw} {dz : PyData} (ha : Names W.lower .cmi a .grassberger) (hd : 2 ≤ data.length) 
    (h4 : Only ["normalize", "offset", "base", "seed"] kw)
    {o : Option Int} {b : Base} 
    (h_normalize : (kwOr kw "normalize" (.bool false)).toBool = some nm)
    (h_offset : (kwOr kw "offset" (.int 0)).toOptInt = some o)
    (h_base : (kwOr kw "base" (W.b0)).toBase = some b)
    {xs : List IArr} (hx : data.mapM PyData.toIArr = some xs) {z : IArr} (hz : PyData.toCondIArr dz = some (.ok z)) (hnm : (nm && (xs.take 2 ++ [z]).all (fun x => !x.two)) = false) :
    imCMI W.vec data a (.val dz) kw = biasCMIArr .grassberger xs z o nm b ∧
      imMI W.vec data a (.val dz) kw = biasCMIArr .grassberger xs z o nm b := by
  have hv : ∀ p : Kw, (∀ r ∈ requiredKw .cmi .grassberger, p r = kw r) →
      (∀ o ∈ optionalKw W.b0 ⟨.cmi, .grassberger⟩, p o.1 = some (kwOr kw o.1 o.2)) →
      Est.result W.vec ⟨⟨.cmi, .grassberger⟩, data, (some dz), p⟩ = biasCMIArr .grassberger xs z o nm b := by
    intro p hr ho
    have g_normalize : Est.get ⟨⟨.cmi, .grassberger⟩, data, (some dz), p⟩ "normalize" PyVal.toBool = some nm := by
      show (p "normalize").bind _ = _
      rw [ho ("normalize", .bool false) (by simp [optionalKw, ownKw, normalizeKw, commonKw, defaultNoise])]; exact h_normalize
    have g_offset : Est.get ⟨⟨.cmi, .grassberger⟩, data, (some dz), p⟩ "offset" PyVal.toOptInt = some o := by
      show (p "offset").bind _ = _
      rw [ho ("offset", .int 0) (by simp [optionalKw, ownKw, normalizeKw, commonKw, defaultNoise])]; exact h_offset
    have g_base : Est.get ⟨⟨.cmi, .grassberger⟩, data, (some dz), p⟩ "base" PyVal.toBase = some b := by
      show (p "base").bind _ = _
      rw [ho ("base", W.b0) (by simp [optionalKw, ownKw, normalizeKw, commonKw, defaultNoise])]; exact h_base
    refine result_vec ?_
    simp (maxSteps := 2000000) only [Est.vecVal, Est.cmiVec, Est.cmiArr, Option.bind_eq_bind, Option.bind_some, Option.bind_none, g_normalize, g_offset, g_base, hx, hz, Est.bclass, hnm, Bool.false_eq_true, if_false]
  obtain ⟨p, e, e', hr, ho⟩ := im_cmi_eval W.vec data a kw dz ha hd (by simp [requiredKw]) h4
  rw [e, e', hv p hr ho]
  exact ⟨rfl, rfl⟩

theorem e2e_acmi_ragged_grassberger {W : World} {nm : Bool} {data : List PyData} {a : PyName} {kw : Kw} {dz : PyData} (ha : Names W.lower .cmi a .grassberger) (hd : 2 ≤ data.length) 
    (h4 : Only ["normalize", "offset", "base", "seed"] kw)
    {o : Option Int} {b : Base} 
    (h_normalize : (kwOr kw "normalize" (.bool false)).toBool = some nm)
    (h_offset : (kwOr kw "offset" (.int 0)).toOptInt = some o)
    (h_base : (kwOr kw "base" (W.b0)).toBase = some b)
    {xs : List IArr} (hx : data.mapM PyData.toIArr = some xs) (hz : PyData.toCondIArr dz = some (.error .valueError)) :
    imCMI W.vec data a (.val dz) kw = .error .valueError ∧
      imMI W.vec data a (.val dz) kw = .error .valueError := by
  have hv : ∀ p : Kw, (∀ r ∈ requiredKw .cmi .grassberger, p r = kw r) →
      (∀ o ∈ optionalKw W.b0 ⟨.cmi, .grassberger⟩, p o.1 = some (kwOr kw o.1 o.2)) →
      Est.result W.vec ⟨⟨.cmi, .grassberger⟩, data, (some dz), p⟩ = .error .valueError := by
    intro p hr ho
    have g_normalize : Est.get ⟨⟨.cmi, .grassberger⟩, data, (some dz), p⟩ "normalize" PyVal.toBool = some nm := by
      show (p "normalize").bind _ = _
      rw [ho ("normalize", .bool false) (by simp [optionalKw, ownKw, normalizeKw, commonKw, defaultNoise])]; exact h_normalize
    have g_offset : Est.get ⟨⟨.cmi, .grassberger⟩, data, (some dz), p⟩ "offset" PyVal.toOptInt = some o := by
      show (p "offset").bind _ = _
      rw [ho ("offset", .int 0) (by simp [optionalKw, ownKw, normalizeKw, commonKw, defaultNoise])]; exact h_offset
    have g_base : Est.get ⟨⟨.cmi, .grassberger⟩, data, (some dz), p⟩ "base" PyVal.toBase = some b := by
      show (p "base").bind _ = _
      rw [ho ("base", W.b0) (by simp [optionalKw, ownKw, normalizeKw, commonKw, defaultNoise])]; exact h_base
    refine result_vec ?_
    simp (maxSteps := 2000000) only [Est.vecVal, Est.cmiVec, Est.cmiArr, Option.bind_eq_bind, Option.bind_some, Option.bind_none, g_normalize, g_offset, g_base, hx, hz, Est.bclass, Bool.false_eq_true, if_false]
  obtain ⟨p, e, e', hr, ho⟩ := im_cmi_eval W.vec data a kw dz ha hd (by simp [requiredKw]) h4
  rw [e, e', hv p hr ho]
  exact ⟨rfl, rfl⟩

theorem e2e_ami_chaoShen {W : World} {nm : Bool} {data : List PyData} {a : PyName} {kw : Kw} {cond : CondKw PyData} (hc : cond.isVal = false) (ha : Names W.lower .mi a .chaoShen) (hd : 2 ≤ data.length) 
    (h4 : Only ["normalize", "offset", "base", "seed"] kw)
    {o : Option Int} {b : Base} 
    (h_normalize : (kwOr kw "normalize" (.bool false)).toBool = some nm)
    (h_offset : (kwOr kw "offset" (.int 0)).toOptInt = some o)
    (h_base : (kwOr kw "base" (W.b0)).toBase = some b)
    {xs : List IArr} (hx : data.mapM PyData.toIArr = some xs) (hnm : (nm && xs.all (fun x => !x.two)) = false) :
    imMI W.vec data a cond kw = biasMIArr .chaoShen xs o nm b := by
  have hv : ∀ p : Kw, (∀ r ∈ requiredKw .mi .chaoShen, p r = kw r) →
      (∀ o ∈ optionalKw W.b0 ⟨.mi, .chaoShen⟩, p o.1 = some (kwOr kw o.1 o.2)) →
      Est.result W.vec ⟨⟨.mi, .chaoShen⟩, data, none, p⟩ = biasMIArr .chaoShen xs o nm b := by
    intro p hr ho
    have g_normalize : Est.get ⟨⟨.mi, .chaoShen⟩, data, none, p⟩ "normalize" PyVal.toBool = some nm := by
      show (p "normalize").bind _ = _
      rw [ho ("normalize", .bool false) (by simp [optionalKw, ownKw, normalizeKw, commonKw, defaultNoise])]; exact h_normalize
    have g_offset : Est.get ⟨⟨.mi, .chaoShen⟩, data, none, p⟩ "offset" PyVal.toOptInt = some o := by
      show (p "offset").bind _ = _
      rw [ho ("offset", .int 0) (by simp [optionalKw, ownKw, normalizeKw, commonKw, defaultNoise])]; exact h_offset
    have g_base : Est.get ⟨⟨.mi, .chaoShen⟩, data, none, p⟩ "base" PyVal.toBase = some b := by
      show (p "base").bind _ = _
      rw [ho ("base", W.b0) (by simp [optionalKw, ownKw, normalizeKw, commonKw, defaultNoise])]; exact h_base
    refine result_vec ?_
    simp (maxSteps := 2000000) only [Est.vecVal, Est.miVec, Est.miArr, Option.bind_eq_bind, Option.bind_some, Option.bind_none, g_normalize, g_offset, g_base, hx, Est.bclass, hnm, Bool.false_eq_true, if_false]
  obtain ⟨p, e, hr, ho⟩ := im_mi_eval W.vec data a cond kw ha hc hd (by simp [requiredKw]) h4
  rw [e, hv p hr ho]

theorem e2e_acmi_chaoShen {W : World} {nm : Bool} {data : List PyData} {a : PyName} {kw : Kw} {dz : PyData} (ha : Names W.lower .cmi a .chaoShen) (hd : 2 ≤ data.length) 
    (h4 : Only ["normalize", "offset", "base", "seed"] kw)
    {o : Option Int} {b : Base} 
    (h_normalize : (kwOr kw "normalize" (.bool false)).toBool = some nm)
    (h_offset : (kwOr kw "offset" (.int 0)).toOptInt = some o)
    (h_base : (kwOr kw "base" (W.b0)).toBase = some b)
    {xs : List IArr} (hx : data.mapM PyData.toIArr = some xs) {z : IArr} (hz : PyData.toCondIArr dz = some (.ok z)) (hnm : (nm && (xs.take 2 ++ [z]).all (fun x => !x.two)) = false) :
    imCMI W.vec data a (.val dz) kw = biasCMIArr .chaoShen xs z o nm b ∧
      imMI W.vec data a (.val dz) kw = biasCMIArr .chaoShen xs z o nm b := by
  have hv : ∀ p : Kw, (∀ r ∈ requiredKw .cmi .chaoShen, p r = kw r) →
      (∀ o ∈ optionalKw W.b0 ⟨.cmi, .chaoShen⟩, p o.1 = some (kwOr kw o.1 o.2)) →
      Est.result W.vec ⟨⟨.cmi, .chaoShen⟩, data, (some dz), p⟩ = biasCMIArr .chaoShen xs z o nm b := by
    intro p hr ho
    have g_normalize : Est.get ⟨⟨.cmi, .chaoShen⟩, data, (some dz), p⟩ "normalize" PyVal.toBool = some nm := by
      show (p "normalize").bind _ = _
      rw [ho ("normalize", .bool false) (by simp [optionalKw, ownKw, normalizeKw, commonKw, defaultNoise])]; exact h_normalize
    have g_offset : Est.get ⟨⟨.cmi, .chaoShen⟩, data, (some dz), p⟩ "offset" PyVal.toOptInt = some o := by
      show (p "offset").bind _ = _
      rw [ho ("offset", .int 0) (by simp [optionalKw, ownKw, normalizeKw, commonKw, defaultNoise])]; exact h_offset
    have g_base : Est.get ⟨⟨.cmi, .chaoShen⟩, data, (some dz), p⟩ "base" PyVal.toBase = some b := by
      show (p "base").bind _ = _
      rw [ho ("base", W.b0) (by simp [optionalKw, ownKw, normalizeKw, commonKw, defaultNoise])]; exact h_base
    refine result_vec ?_
    simp (maxSteps := 2000000) only [Est.vecVal, Est.cmiVec, Est.cmiArr, Option.bind_eq_bind, Option.bind_some, Option.bind_none, g_normalize, g_offset, g_base, hx, hz, Est.bclass, hnm, Bool.false_eq_true, if_false]
  obtain ⟨p, e, e', hr, ho⟩ := im_cmi_eval W.vec data a kw dz ha hd (by simp [requiredKw]) h4
  rw [e, e', hv p hr ho]
  exact ⟨rfl, rfl⟩

theorem e2e_acmi_ragged_chaoShen {W : World} {nm : Bool} {data : List PyData} {a : PyName} {kw : Kw} {dz : PyData} (ha : Names W.lower .cmi a .chaoShen) (hd : 2 ≤ data.length) 
    (h4 : Only ["normalize", "offset", "base", "seed"] kw)
    {o : Option Int} {b : Base} 
    (h_normalize : (kwOr kw "normalize" (.bool false)).toBool = some nm)
    (h_offset : (kwOr kw "offset" (.int 0)).toOptInt = some o)
    (h_base : (kwOr kw "base" (W.b0)).toBase = some b)
    {xs : List IArr} (hx : data.mapM PyData.toIArr = some xs) (hz : PyData.toCondIArr dz = some (.error .valueError)) :
    imCMI W.vec data a (.val dz) kw = .error .valueError ∧
      imMI W.vec data a (.val dz) kw = .error .valueError := by
  have hv : ∀ p : Kw, (∀ r ∈ requiredKw .cmi .chaoShen, p r = kw r) →
      (∀ o ∈ optionalKw W.b0 ⟨.cmi, .chaoShen⟩, p o.1 = some (kwOr kw o.1 o.2)) →
      Est.result W.vec ⟨⟨.cmi, .chaoShen⟩, data, (some dz), p⟩ = .error .valueError := by
    intro p hr ho
    have g_normalize : Est.get ⟨⟨.cmi, .chaoShen⟩, data, (some dz), p⟩ "normalize" PyVal.toBool = some nm := by
      show (p "normalize").bind _ = _
      rw [ho ("normalize", .bool false) (by simp [optionalKw, ownKw, normalizeKw, commonKw, defaultNoise])]; exact h_normalize
    have g_offset : Est.get ⟨⟨.cmi, .chaoShen⟩, data, (some dz), p⟩ "offset" PyVal.toOptInt = some o := by
      show (p "offset").bind _ = _
      rw [ho ("offset", .int 0) (by simp [optionalKw, ownKw, normalizeKw, commonKw, defaultNoise])]; exact h_offset
    have g_base : Est.get ⟨⟨.cmi, .chaoShen⟩, data, (some dz), p⟩ "base" PyVal.toBase = some b := by
      show (p "base").bind _ = _
      rw [ho ("base", W.b0) (by simp [optionalKw, ownKw, normalizeKw, commonKw, defaultNoise])]; exact h_base
    refine result_vec ?_
    simp (maxSteps := 2000000) only [Est.vecVal, Est.cmiVec, Est.cmiArr, Option.bind_eq_bind, Option.bind_some, Option.bind_none, g_normalize, g_offset, g_base, hx, hz, Est.bclass, Bool.false_eq_true, if_false]
  obtain ⟨p, e, e', hr, ho⟩ := im_cmi_eval W.vec data a kw dz ha hd (by simp [requiredKw]) h4
  rw [e, e', hv p hr ho]
  exact ⟨rfl, rfl⟩

theorem e2e_ami_chaoWangJost {W : World} {nm : Bool} {data : List PyData} {a : PyName} {kw : Kw} {cond : CondKw PyData} (hc : cond.isVal = false) (ha : Names W.lower .mi a .chaoWangJost) (hd : 2 ≤ data.length) 
    (h4 : Only ["normalize", "offset", "base", "seed"] kw)
    {o : Option Int} {b : Base} 
    (h_normalize : (kwOr kw "normalize" (.bool false)).toBool = some nm)
    (h_offset : (kwOr kw "offset" (.int 0)).toOptInt = some o)
    (h_base : (kwOr kw "base" (W.b0)).toBase = some b)
    {xs : List IArr} (hx : data.mapM PyData.toIArr = some xs) (hnm : (nm && xs.all (fun x => !x.two)) = false) :
    imMI W.vec data a cond kw = biasMIArr .chaoWangJost xs o nm b := by
  have hv : ∀ p : Kw, (∀ r ∈ requiredKw .mi .chaoWangJost, p r = kw r) →
      (∀ o ∈ optionalKw W.b0 ⟨.mi, .chaoWangJost⟩, p o.1 = some (kwOr kw o.1 o.2)) →
      Est.result W.vec ⟨⟨.mi, .chaoWangJost⟩, data, none, p⟩ = biasMIArr .chaoWangJost xs o nm b := by
    intro p hr ho
    have g_normalize : Est.get ⟨⟨.mi, .chaoWangJost⟩, data, none, p⟩ "normalize" PyVal.toBool = some nm := by
      show (p "normalize").bind _ = _
      rw [ho ("normalize", .bool false) (by simp [optionalKw, ownKw, normalizeKw, commonKw, defaultNoise])]; exact h_normalize
    have g_offset : Est.get ⟨⟨.mi, .chaoWangJost⟩, data, none, p⟩ "offset" PyVal.toOptInt = some o := by
      show (p "offset").bind _ = _
      rw [ho ("offset", .int 0) (by simp [optionalKw, ownKw, normalizeKw, commonKw, defaultNoise])]; exact h_offset
    have g_base : Est.get ⟨⟨.mi, .chaoWangJost⟩, data, none, p⟩ "base" PyVal.toBase = some b := by
      show (p "base").bind _ = _
      rw [ho ("base", W.b0) (by simp [optionalKw, ownKw, normalizeKw, commonKw, defaultNoise])]; exact h_base
    refine result_vec ?_
    simp (maxSteps := 2000000) only [Est.vecVal, Est.miVec, Est.miArr, Option.bind_eq_bind, Option.bind_some, Option.bind_none, g_normalize, g_offset, g_base, hx, Est.bclass, hnm, Bool.false_eq_true, if_false]
  obtain ⟨p, e, hr, ho⟩ := im_mi_eval W.vec data a cond kw ha hc hd (by simp [requiredKw]) h4
  rw [e, hv p hr ho]

theorem e2e_acmi_chaoWangJost {W : World} {nm : Bool} {data : List PyData} {a : PyName} {kw : Kw} {dz : PyData} (ha : Names W.lower .cmi a .chaoWangJost) (hd : 2 ≤ data.length) 
    (h4 : Only ["normalize", "offset", "base", "seed"] kw)
    {o : Option Int} {b : Base} 
    (h_normalize : (kwOr kw "normalize" (.bool false)).toBool = some nm)
    (h_offset : (kwOr kw "offset" (.int 0)).toOptInt = some o)
    (h_base : (kwOr kw "base" (W.b0)).toBase = some b)
    {xs : List IArr} (hx : data.mapM PyData.toIArr = some xs) {z : IArr} (hz : PyData.toCondIArr dz = some (.ok z)) (hnm : (nm && (xs.take 2 ++ [z]).all (fun x => !x.two)) = false) :
    imCMI W.vec data a (.val dz) kw = biasCMIArr .chaoWangJost xs z o nm b ∧
      imMI W.vec data a (.val dz) kw = biasCMIArr .chaoWangJost xs z o nm b := by
  have hv : ∀ p : Kw, (∀ r ∈ requiredKw .cmi .chaoWangJost, p r = kw r) →
      (∀ o ∈ optionalKw W.b0 ⟨.cmi, .chaoWangJost⟩, p o.1 = some (kwOr kw o.1 o.2)) →
      Est.result W.vec ⟨⟨.cmi, .chaoWangJost⟩, data, (some dz), p⟩ = biasCMIArr .chaoWangJost xs z o nm b := by
    intro p hr ho
    have g_normalize : Est.get ⟨⟨.cmi, .chaoWangJost⟩, data, (some dz), p⟩ "normalize" PyVal.toBool = some nm := by
      show (p "normalize").bind _ = _
      rw [ho ("normalize", .bool false) (by simp [optionalKw, ownKw, normalizeKw, commonKw, defaultNoise])]; exact h_normalize
    have g_offset : Est.get ⟨⟨.cmi, .chaoWangJost⟩, data, (some dz), p⟩ "offset" PyVal.toOptInt = some o := by
      show (p "offset").bind _ = _
      rw [ho ("offset", .int 0) (by simp [optionalKw, ownKw, normalizeKw, commonKw, defaultNoise])]; exact h_offset
    have g_base : Est.get ⟨⟨.cmi, .chaoWangJost⟩, data, (some dz), p⟩ "base" PyVal.toBase = some b := by
      show (p "base").bind _ = _
      rw [ho ("base", W.b0) (by simp [optionalKw, ownKw, normalizeKw, commonKw, defaultNoise])]; exact h_base
    refine result_vec ?_
    simp (maxSteps := 2000000) only [Est.vecVal, Est.cmiVec, Est.cmiArr, Option.bind_eq_bind, Option.bind_some, Option.bind_none, g_normalize, g_offset, g_base, hx, hz, Est.bclass, hnm, Bool.false_eq_true, if_false]
  obtain ⟨p, e, e', hr, ho⟩ := im_cmi_eval W.vec data a kw dz ha hd (by simp [requiredKw]) h4
  rw [e, e', hv p hr ho]
  exact ⟨rfl, rfl⟩

theorem e2e_acmi_ragged_chaoWangJost {W : World} {nm : Bool} {data : List PyData} {a : PyName} {kw : Kw} {dz : PyData} (ha : Names W.lower .cmi a .chaoWangJost) (hd : 2 ≤ data.length) 
    (h4 : Only ["normalize", "offset", "base", "seed"] kw)
    {o : Option Int} {b : Base} 
    (h_normalize : (kwOr kw "normalize" (.bool false)).toBool = some nm)
    (h_offset : (kwOr kw "offset" (.int 0)).toOptInt = some o)
    (h_base : (kwOr kw "base" (W.b0)).toBase = some b)
    {xs : List IArr} (hx : data.mapM PyData.toIArr = some xs) (hz : PyData.toCondIArr dz = some (.error .valueError)) :
    imCMI W.vec data a (.val dz) kw = .error .valueError ∧
      imMI W.vec data a (.val dz) kw = .error .valueError := by
  have hv : ∀ p : Kw, (∀ r ∈ requiredKw .cmi .chaoWangJost, p r = kw r) →
      (∀ o ∈ optionalKw W.b0 ⟨.cmi, .chaoWangJost⟩, p o.1 = some (kwOr kw o.1 o.2)) →
      Est.result W.vec ⟨⟨.cmi, .chaoWangJost⟩, data, (some dz), p⟩ = .error .valueError := by
    intro p hr ho
    have g_normalize : Est.get ⟨⟨.cmi, .chaoWangJost⟩, data, (some dz), p⟩ "normalize" PyVal.toBool = some nm := by
      show (p "normalize").bind _ = _
      rw [ho ("normalize", .bool false) (by simp [optionalKw, ownKw, normalizeKw, commonKw, defaultNoise])]; exact h_normalize
    have g_offset : Est.get ⟨⟨.cmi, .chaoWangJost⟩, data, (some dz), p⟩ "offset" PyVal.toOptInt = some o := by
      show (p "offset").bind _ = _
      rw [ho ("offset", .int 0) (by simp [optionalKw, ownKw, normalizeKw, commonKw, defaultNoise])]; exact h_offset
    have g_base : Est.get ⟨⟨.cmi, .chaoWangJost⟩, data, (some dz), p⟩ "base" PyVal.toBase = some b := by
      show (p "base").bind _ = _
      rw [ho ("base", W.b0) (by simp [optionalKw, ownKw, normalizeKw, commonKw, defaultNoise])]; exact h_base
    refine result_vec ?_
    simp (maxSteps := 2000000) only [Est.vecVal, Est.cmiVec, Est.cmiArr, Option.bind_eq_bind, Option.bind_some, Option.bind_none, g_normalize, g_offset, g_base, hx, hz, Est.bclass, Bool.false_eq_true, if_false]
  obtain ⟨p, e, e', hr, ho⟩ := im_cmi_eval W.vec data a kw dz ha hd (by simp [requiredKw]) h4
  rw [e, e', hv p hr ho]
  exact ⟨rfl, rfl⟩

theorem e2e_ami_shrink {W : World} {nm : Bool} {data : List PyData} {a : PyName} {kw : Kw} {cond : CondKw PyData} (hc : cond.isVal = false) (ha : Names W.lower .mi a .shrink) (hd : 2 ≤ data.length) 
    (h4 : Only ["normalize", "offset", "base", "seed"] kw)
    {o : Option Int} {b : Base} 
    (h_normalize : (kwOr kw "normalize" (.bool false)).toBool = some nm)
    (h_offset : (kwOr kw "offset" (.int 0)).toOptInt = some o)
    (h_base : (kwOr kw "base" (W.b0)).toBase = some b)
    {xs : List IArr} (hx : data.mapM PyData.toIArr = some xs) (hnm : (nm && xs.all (fun x => !x.two)) = false) :
    imMI W.vec data a cond kw = biasMIArr .shrink xs o nm b := by
  have hv : ∀ p : Kw, (∀ r ∈ requiredKw .mi .shrink, p r = kw r) →
      (∀ o ∈ optionalKw W.b0 ⟨.mi, .shrink⟩, p o.1 = some (kwOr kw o.1 o.2)) →
      Est.result W.vec ⟨⟨.mi, .shrink⟩, data, none, p⟩ = biasMIArr .shrink xs o nm b := by
    intro p hr ho
    have g_normalize : Est.get ⟨⟨.mi, .shrink⟩, data, none, p⟩ "normalize" PyVal.toBool = some nm := by
      show (p "normalize").bind _ = _
      rw [ho ("normalize", .bool false) (by simp [optionalKw, ownKw, normalizeKw, commonKw, defaultNoise])]; exact h_normalize
    have g_offset : Est.get ⟨⟨.mi, .shrink⟩, data, none, p⟩ "offset" PyVal.toOptInt = some o := by
      show (p "offset").bind _ = _
      rw [ho ("offset", .int 0) (by simp [optionalKw, ownKw, normalizeKw, commonKw, defaultNoise])]; exact h_offset
    have g_base : Est.get ⟨⟨.mi, .shrink⟩, data, none, p⟩ "base" PyVal.toBase = some b := by
      show (p "base").bind _ = _
      rw [ho ("base", W.b0) (by simp [optionalKw, ownKw, normalizeKw, commonKw, defaultNoise])]; exact h_base
    refine result_vec ?_
    simp (maxSteps := 2000000) only [Est.vecVal, Est.miVec, Est.miArr, Option.bind_eq_bind, Option.bind_some, Option.bind_none, g_normalize, g_offset, g_base, hx, Est.bclass, hnm, Bool.false_eq_true, if_false]
  obtain ⟨p, e, hr, ho⟩ := im_mi_eval W.vec data a cond kw ha hc hd (by simp [requiredKw]) h4
  rw [e, hv p hr ho]

theorem e2e_acmi_shrink {W : World} {nm : Bool} {data : List PyData} {a : PyName} {kw : Kw} {dz : PyData} (ha : Names W.lower .cmi a .shrink) (hd : 2 ≤ data.length) 
    (h4 : Only ["normalize", "offset", "base", "seed"] kw)
    {o : Option Int} {b : Base} 
    (h_normalize : (kwOr kw "normalize" (.bool false)).toBool = some nm)
    (h_offset : (kwOr kw "offset" (.int 0)).toOptInt = some o)
    (h_base : (kwOr kw "base" (W.b0)).toBase = some b)
    {xs : List IArr} (hx : data.mapM PyData.toIArr = some xs) {z : IArr} (hz : PyData.toCondIArr dz = some (.ok z)) (hnm : (nm && (xs.take 2 ++ [z]).all (fun x => !x.two)) = false) :
    imCMI W.vec data a (.val dz) kw = biasCMIArr .shrink xs z o nm b ∧
      imMI W.vec data a (.val dz) kw = biasCMIArr .shrink xs z o nm b := by
  have hv : ∀ p : Kw, (∀ r ∈ requiredKw .cmi .shrink, p r = kw r) →
      (∀ o ∈ optionalKw W.b0 ⟨.cmi, .shrink⟩, p o.1 = some (kwOr kw o.1 o.2)) →
      Est.result W.vec ⟨⟨.cmi, .shrink⟩, data, (some dz), p⟩ = biasCMIArr .shrink xs z o nm b := by
    intro p hr ho
    have g_normalize : Est.get ⟨⟨.cmi, .shrink⟩, data, (some dz), p⟩ "normalize" PyVal.toBool = some nm := by
      show (p "normalize").bind _ = _
      rw [ho ("normalize", .bool false) (by simp [optionalKw, ownKw, normalizeKw, commonKw, defaultNoise])]; exact h_normalize
    have g_offset : Est.get ⟨⟨.cmi, .shrink⟩, data, (some dz), p⟩ "offset" PyVal.toOptInt = some o := by
      show (p "offset").bind _ = _
      rw [ho ("offset", .int 0) (by simp [optionalKw, ownKw, normalizeKw, commonKw, defaultNoise])]; exact h_offset
    have g_base : Est.get ⟨⟨.cmi, .shrink⟩, data, (some dz), p⟩ "base" PyVal.toBase = some b := by
      show (p "base").bind _ = _
      rw [ho ("base", W.b0) (by simp [optionalKw, ownKw, normalizeKw, commonKw, defaultNoise])]; exact h_base
    refine result_vec ?_
    simp (maxSteps := 2000000) only [Est.vecVal, Est.cmiVec, Est.cmiArr, Option.bind_eq_bind, Option.bind_some, Option.bind_none, g_normalize, g_offset, g_base, hx, hz, Est.bclass, hnm, Bool.false_eq_true, if_false]
  obtain ⟨p, e, e', hr, ho⟩ := im_cmi_eval W.vec data a kw dz ha hd (by simp [requiredKw]) h4
  rw [e, e', hv p hr ho]
  exact ⟨rfl, rfl⟩

theorem e2e_acmi_ragged_shrink {W : World} {nm : Bool} {data : List PyData} {a : PyName} {kw : Kw} {dz : PyData} (ha : Names W.lower .cmi a .shrink) (hd : 2 ≤ data.length) 
    (h4 : Only ["normalize", "offset", "base", "seed"] kw)
    {o : Option Int} {b : Base} 
    (h_normalize : (kwOr kw "normalize" (.bool false)).toBool = some nm)
    (h_offset : (kwOr kw "offset" (.int 0)).toOptInt = some o)
    (h_base : (kwOr kw "base" (W.b0)).toBase = some b)
    {xs : List IArr} (hx : data.mapM PyData.toIArr = some xs) (hz : PyData.toCondIArr dz = some (.error .valueError)) :
    imCMI W.vec data a (.val dz) kw = .error .valueError ∧
      imMI W.vec data a (.val dz) kw = .error .valueError := by
  have hv : ∀ p : Kw, (∀ r ∈ requiredKw .cmi .shrink, p r = kw r) →
      (∀ o ∈ optionalKw W.b0 ⟨.cmi, .shrink⟩, p o.1 = some (kwOr kw o.1 o.2)) →
      Est.result W.vec ⟨⟨.cmi, .shrink⟩, data, (some dz), p⟩ = .error .valueError := by
    intro p hr ho
    have g_normalize : Est.get ⟨⟨.cmi, .shrink⟩, data, (some dz), p⟩ "normalize" PyVal.toBool = some nm := by
      show (p "normalize").bind _ = _
      rw [ho ("normalize", .bool false) (by simp [optionalKw, ownKw, normalizeKw, commonKw, defaultNoise])]; exact h_normalize
    have g_offset : Est.get ⟨⟨.cmi, .shrink⟩, data, (some dz), p⟩ "offset" PyVal.toOptInt = some o := by
      show (p "offset").bind _ = _
      rw [ho ("offset", .int 0) (by simp [optionalKw, ownKw, normalizeKw, commonKw, defaultNoise])]; exact h_offset
    have g_base : Est.get ⟨⟨.cmi, .shrink⟩, data, (some dz), p⟩ "base" PyVal.toBase = some b := by
      show (p "base").bind _ = _
      rw [ho ("base", W.b0) (by simp [optionalKw, ownKw, normalizeKw, commonKw, defaultNoise])]; exact h_base
    refine result_vec ?_
    simp (maxSteps := 2000000) only [Est.vecVal, Est.cmiVec, Est.cmiArr, Option.bind_eq_bind, Option.bind_some, Option.bind_none, g_normalize, g_offset, g_base, hx, hz, Est.bclass, Bool.false_eq_true, if_false]
  obtain ⟨p, e, e', hr, ho⟩ := im_cmi_eval W.vec data a kw dz ha hd (by simp [requiredKw]) h4
  rw [e, e', hv p hr ho]
  exact ⟨rfl, rfl⟩

theorem e2e_ami_zhang {W : World} {nm : Bool} {data : List PyData} {a : PyName} {kw : Kw} {cond : CondKw PyData} (hc : cond.isVal = false) (ha : Names W.lower .mi a .zhang) (hd : 2 ≤ data.length) 
    (h4 : Only ["normalize", "offset", "base", "seed"] kw)
    {o : Option Int} {b : Base} 
    (h_normalize : (kwOr kw "normalize" (.bool false)).toBool = some nm)
    (h_offset : (kwOr kw "offset" (.int 0)).toOptInt = some o)
    (h_base : (kwOr kw "base" (W.b0)).toBase = some b)
    {xs : List IArr} (hx : data.mapM PyData.toIArr = some xs) (hnm : (nm && xs.all (fun x => !x.two)) = false) :
    imMI W.vec data a cond kw = biasMIArr .zhang xs o nm b := by
  have hv : ∀ p : Kw, (∀ r ∈ requiredKw .mi .zhang, p r = kw r) →
      (∀ o ∈ optionalKw W.b0 ⟨.mi, .zhang⟩, p o.1 = some (kwOr kw o.1 o.2)) →
      Est.result W.vec ⟨⟨.mi, .zhang⟩, data, none, p⟩ = biasMIArr .zhang xs o nm b := by
    intro p hr ho
    have g_normalize : Est.get ⟨⟨.mi, .zhang⟩, data, none, p⟩ "normalize" PyVal.toBool = some nm := by
      show (p "normalize").bind _ = _
      rw [ho ("normalize", .bool false) (by simp [optionalKw, ownKw, normalizeKw, commonKw, defaultNoise])]; exact h_normalize
    have g_offset : Est.get ⟨⟨.mi, .zhang⟩, data, none, p⟩ "offset" PyVal.toOptInt = some o := by
      show (p "offset").bind _ = _
      rw [ho ("offset", .int 0) (by simp [optionalKw, ownKw, normalizeKw, commonKw, defaultNoise])]; exact h_offset
    have g_base : Est.get ⟨⟨.mi, .zhang⟩, data, none, p⟩ "base" PyVal.toBase = some b := by
      show (p "base").bind _ = _
      rw [ho ("base", W.b0) (by simp [optionalKw, ownKw, normalizeKw, commonKw, defaultNoise])]; exact h_base
    refine result_vec ?_
    simp (maxSteps := 2000000) only [Est.vecVal, Est.miVec, Est.miArr, Option.bind_eq_bind, Option.bind_some, Option.bind_none, g_normalize, g_offset, g_base, hx, Est.bclass, hnm, Bool.false_eq_true, if_false]
  obtain ⟨p, e, hr, ho⟩ := im_mi_eval W.vec data a cond kw ha hc hd (by simp [requiredKw]) h4
  rw [e, hv p hr ho]

theorem e2e_acmi_zhang {W : World} {nm : Bool} {data : List PyData} {a : PyName} {kw : Kw} {dz : PyData} (ha : Names W.lower .cmi a .zhang) (hd : 2 ≤ data.length) 
    (h4 : Only ["normalize", "offset", "base", "seed"] kw)
    {o : Option Int} {b : Base} 
    (h_normalize : (kwOr kw "normalize" (.bool false)).toBool = some nm)
    (h_offset : (kwOr kw "offset" (.int 0)).toOptInt = some o)
    (h_base : (kwOr kw "base" (W.b0)).toBase = some b)
    {xs : List IArr} (hx : data.mapM PyData.toIArr = some xs) {z : IArr} (hz : PyData.toCondIArr dz = some (.ok z)) (hnm : (nm && (xs.take 2 ++ [z]).all (fun x => !x.two)) = false) :
    imCMI W.vec data a (.val dz) kw = biasCMIArr .zhang xs z o nm b ∧
      imMI W.vec data a (.val dz) kw = biasCMIArr .zhang xs z o nm b := by
  have hv : ∀ p : Kw, (∀ r ∈ requiredKw .cmi .zhang, p r = kw r) →
      (∀ o ∈ optionalKw W.b0 ⟨.cmi, .zhang⟩, p o.1 = some (kwOr kw o.1 o.2)) →
      Est.result W.vec ⟨⟨.cmi, .zhang⟩, data, (some dz), p⟩ = biasCMIArr .zhang xs z o nm b := by
    intro p hr ho
    have g_normalize : Est.get ⟨⟨.cmi, .zhang⟩, data, (some dz), p⟩ "normalize" PyVal.toBool = some nm := by
      show (p "normalize").bind _ = _
      rw [ho ("normalize", .bool false) (by simp [optionalKw, ownKw, normalizeKw, commonKw, defaultNoise])]; exact h_normalize
    have g_offset : Est.get ⟨⟨.cmi, .zhang⟩, data, (some dz), p⟩ "offset" PyVal.toOptInt = some o := by
      show (p "offset").bind _ = _
      rw [ho ("offset", .int 0) (by simp [optionalKw, ownKw, normalizeKw, commonKw, defaultNoise])]; exact h_offset
    have g_base : Est.get ⟨⟨.cmi, .zhang⟩, data, (some dz), p⟩ "base" PyVal.toBase = some b := by
      show (p "base").bind _ = _
      rw [ho ("base", W.b0) (by simp [optionalKw, ownKw, normalizeKw, commonKw, defaultNoise])]; exact h_base
    refine result_vec ?_
    simp (maxSteps := 2000000) only [Est.vecVal, Est.cmiVec, Est.cmiArr, Option.bind_eq_bind, Option.bind_some, Option.bind_none, g_normalize, g_offset, g_base, hx, hz, Est.bclass, hnm, Bool.false_eq_true, if_false]
  obtain ⟨p, e, e', hr, ho⟩ := im_cmi_eval W.vec data a kw dz ha hd (by simp [requiredKw]) h4
  rw [e, e', hv p hr ho]
  exact ⟨rfl, rfl⟩

theorem e2e_acmi_ragged_zhang {W : World} {nm : Bool} {data : List PyData} {a : PyName} {kw : Kw} {dz : PyData} (ha : Names W.lower .cmi a .zhang) (hd : 2 ≤ data.length) 
    (h4 : Only ["normalize", "offset", "base", "seed"] kw)
    {o : Option Int} {b : Base} 
    (h_normalize : (kwOr kw "normalize" (.bool false)).toBool = some nm)
    (h_offset : (kwOr kw "offset" (.int 0)).toOptInt = some o)
    (h_base : (kwOr kw "base" (W.b0)).toBase = some b)
    {xs : List IArr} (hx : data.mapM PyData.toIArr = some xs) (hz : PyData.toCondIArr dz = some (.error .valueError)) :
    imCMI W.vec data a (.val dz) kw = .error .valueError ∧
      imMI W.vec data a (.val dz) kw = .error .valueError := by
  have hv : ∀ p : Kw, (∀ r ∈ requiredKw .cmi .zhang, p r = kw r) →
      (∀ o ∈ optionalKw W.b0 ⟨.cmi, .zhang⟩, p o.1 = some (kwOr kw o.1 o.2)) →
      Est.result W.vec ⟨⟨.cmi, .zhang⟩, data, (some dz), p⟩ = .error .valueError := by
    intro p hr ho
    have g_normalize : Est.get ⟨⟨.cmi, .zhang⟩, data, (some dz), p⟩ "normalize" PyVal.toBool = some nm := by
      show (p "normalize").bind _ = _
      rw [ho ("normalize", .bool false) (by simp [optionalKw, ownKw, normalizeKw, commonKw, defaultNoise])]; exact h_normalize
    have g_offset : Est.get ⟨⟨.cmi, .zhang⟩, data, (some dz), p⟩ "offset" PyVal.toOptInt = some o := by
      show (p "offset").bind _ = _
      rw [ho ("offset", .int 0) (by simp [optionalKw, ownKw, normalizeKw, commonKw, defaultNoise])]; exact h_offset
    have g_base : Est.get ⟨⟨.cmi, .zhang⟩, data, (some dz), p⟩ "base" PyVal.toBase = some b := by
      show (p "base").bind _ = _
      rw [ho ("base", W.b0) (by simp [optionalKw, ownKw, normalizeKw, commonKw, defaultNoise])]; exact h_base
    refine result_vec ?_
    simp (maxSteps := 2000000) only [Est.vecVal, Est.cmiVec, Est.cmiArr, Option.bind_eq_bind, Option.bind_some, Option.bind_none, g_normalize, g_offset, g_base, hx, hz, Est.bclass, Bool.false_eq_true, if_false]
  obtain ⟨p, e, e', hr, ho⟩ := im_cmi_eval W.vec data a kw dz ha hd (by simp [requiredKw]) h4
  rw [e, e', hv p hr ho]
  exact ⟨rfl, rfl⟩

theorem e2e_ami_bonachela {W : World} {nm : Bool} {data : List PyData} {a : PyName} {kw : Kw} {cond : CondKw PyData} (hc : cond.isVal = false) (ha : Names W.lower .mi a .bonachela) (hd : 2 ≤ data.length) 
    (h4 : Only ["normalize", "offset", "base", "seed"] kw)
    {o : Option Int} {b : Base} 
    (h_normalize : (kwOr kw "normalize" (.bool false)).toBool = some nm)
    (h_offset : (kwOr kw "offset" (.int 0)).toOptInt = some o)
    (h_base : (kwOr kw "base" (W.b0)).toBase = some b)
    {xs : List IArr} (hx : data.mapM PyData.toIArr = some xs) (hnm : (nm && xs.all (fun x => !x.two)) = false) :
    imMI W.vec data a cond kw = biasMIArr .bonachela xs o nm b := by
  have hv : ∀ p : Kw, (∀ r ∈ requiredKw .mi .bonachela, p r = kw r) →
      (∀ o ∈ optionalKw W.b0 ⟨.mi, .bonachela⟩, p o.1 = some (kwOr kw o.1 o.2)) →
      Est.result W.vec ⟨⟨.mi, .bonachela⟩, data, none, p⟩ = biasMIArr .bonachela xs o nm b := by
    intro p hr ho
    have g_normalize : Est.get ⟨⟨.mi, .bonachela⟩, data, none, p⟩ "normalize" PyVal.toBool = some nm := by
      show (p "normalize").bind _ = _
      rw [ho ("normalize", .bool false) (by simp [optionalKw, ownKw, normalizeKw, commonKw, defaultNoise])]; exact h_normalize
    have g_offset : Est.get ⟨⟨.mi, .bonachela⟩, data, none, p⟩ "offset" PyVal.toOptInt = some o := by
      show (p "offset").bind _ = _
      rw [ho ("offset", .int 0) (by simp [optionalKw, ownKw, normalizeKw, commonKw, defaultNoise])]; exact h_offset
    have g_base : Est.get ⟨⟨.mi, .bonachela⟩, data, none, p⟩ "base" PyVal.toBase = some b := by
      show (p "base").bind _ = _
      rw [ho ("base", W.b0) (by simp [optionalKw, ownKw, normalizeKw, commonKw, defaultNoise])]; exact h_base
    refine result_vec ?_
    simp (maxSteps := 2000000) only [Est.vecVal, Est.miVec, Est.miArr, Option.bind_eq_bind, Option.bind_some, Option.bind_none, g_normalize, g_offset, g_base, hx, Est.bclass, hnm, Bool.false_eq_true, if_false]
  obtain ⟨p, e, hr, ho⟩ := im_mi_eval W.vec data a cond kw ha hc hd (by simp [requiredKw]) h4
  rw [e, hv p hr ho]

theorem e2e_acmi_bonachela {W : World} {nm : Bool} {data : List PyData} {a : PyName} {kw : Kw} {dz : PyData} (ha : Names W.lower .cmi a .bonachela) (hd : 2 ≤ data.length) 
    (h4 : Only ["normalize", "offset", "base", "seed"] kw)
    {o : Option Int} {b : Base} 
    (h_normalize : (kwOr kw "normalize" (.bool false)).toBool = some nm)
    (h_offset : (kwOr kw "offset" (.int 0)).toOptInt = some o)
    (h_base : (kwOr kw "base" (W.b0)).toBase = some b)
    {xs : List IArr} (hx : data.mapM PyData.toIArr = some xs) {z : IArr} (hz : PyData.toCondIArr dz = some (.ok z)) (hnm : (nm && (xs.take 2 ++ [z]).all (fun x => !x.two)) = false) :
    imCMI W.vec data a (.val dz) kw = biasCMIArr .bonachela xs z o nm b ∧
      imMI W.vec data a (.val dz) kw = biasCMIArr .bonachela xs z o nm b := by
  have hv : ∀ p : Kw, (∀ r ∈ requiredKw .cmi .bonachela, p r = kw r) →
      (∀ o ∈ optionalKw W.b0 ⟨.cmi, .bonachela⟩, p o.1 = some (kwOr kw o.1 o.2)) →
      Est.result W.vec ⟨⟨.cmi, .bonachela⟩, data, (some dz), p⟩ = biasCMIArr .bonachela xs z o nm b := by
    intro p hr ho
    have g_normalize : Est.get ⟨⟨.cmi, .bonachela⟩, data, (some dz), p⟩ "normalize" PyVal.toBool = some nm := by
      show (p "normalize").bind _ = _
      rw [ho ("normalize", .bool false) (by simp [optionalKw, ownKw, normalizeKw, commonKw, defaultNoise])]; exact h_normalize
    have g_offset : Est.get ⟨⟨.cmi, .bonachela⟩, data, (some dz), p⟩ "offset" PyVal.toOptInt = some o := by
      show (p "offset").bind _ = _
      rw [ho ("offset", .int 0) (by simp [optionalKw, ownKw, normalizeKw, commonKw, defaultNoise])]; exact h_offset
    have g_base : Est.get ⟨⟨.cmi, .bonachela⟩, data, (some dz), p⟩ "base" PyVal.toBase = some b := by
      show (p "base").bind _ = _
      rw [ho ("base", W.b0) (by simp [optionalKw, ownKw, normalizeKw, commonKw, defaultNoise])]; exact h_base
    refine result_vec ?_
    simp (maxSteps := 2000000) only [Est.vecVal, Est.cmiVec, Est.cmiArr, Option.bind_eq_bind, Option.bind_some, Option.bind_none, g_normalize, g_offset, g_base, hx, hz, Est.bclass, hnm, Bool.false_eq_true, if_false]
  obtain ⟨p, e, e', hr, ho⟩ := im_cmi_eval W.vec data a kw dz ha hd (by simp [requiredKw]) h4
  rw [e, e', hv p hr ho]
  exact ⟨rfl, rfl⟩

theorem e2e_acmi_ragged_bonachela {W : World} {nm : Bool} {data : List PyData} {a : PyName} {kw : Kw} {dz : PyData} (ha : Names W.lower .cmi a .bonachela) (hd : 2 ≤ data.length) 
    (h4 : Only ["normalize", "offset", "base", "seed"] kw)
    {o : Option Int} {b : Base} 
    (h_normalize : (kwOr kw "normalize" (.bool false)).toBool = some nm)
    (h_offset : (kwOr kw "offset" (.int 0)).toOptInt = some o)
    (h_base : (kwOr kw "base" (W.b0)).toBase = some b)
    {xs : List IArr} (hx : data.mapM PyData.toIArr = some xs) (hz : PyData.toCondIArr dz = some (.error .valueError)) :
    imCMI W.vec data a (.val dz) kw = .error .valueError ∧
      imMI W.vec data a (.val dz) kw = .error .valueError := by
  have hv : ∀ p : Kw, (∀ r ∈ requiredKw .cmi .bonachela, p r = kw r) →
      (∀ o ∈ optionalKw W.b0 ⟨.cmi, .bonachela⟩, p o.1 = some (kwOr kw o.1 o.2)) →
      Est.result W.vec ⟨⟨.cmi, .bonachela⟩, data, (some dz), p⟩ = .error .valueError := by
    intro p hr ho
    have g_normalize : Est.get ⟨⟨.cmi, .bonachela⟩, data, (some dz), p⟩ "normalize" PyVal.toBool = some nm := by
      show (p "normalize").bind _ = _
      rw [ho ("normalize", .bool false) (by simp [optionalKw, ownKw, normalizeKw, commonKw, defaultNoise])]; exact h_normalize
    have g_offset : Est.get ⟨⟨.cmi, .bonachela⟩, data, (some dz), p⟩ "offset" PyVal.toOptInt = some o := by
      show (p "offset").bind _ = _
      rw [ho ("offset", .int 0) (by simp [optionalKw, ownKw, normalizeKw, commonKw, defaultNoise])]; exact h_offset
    have g_base : Est.get ⟨⟨.cmi, .bonachela⟩, data, (some dz), p⟩ "base" PyVal.toBase = some b := by
      show (p "base").bind _ = _
      rw [ho ("base", W.b0) (by simp [optionalKw, ownKw, normalizeKw, commonKw, defaultNoise])]; exact h_base
    refine result_vec ?_
    simp (maxSteps := 2000000) only [Est.vecVal, Est.cmiVec, Est.cmiArr, Option.bind_eq_bind, Option.bind_some, Option.bind_none, g_normalize, g_offset, g_base, hx, hz, Est.bclass, Bool.false_eq_true, if_false]
  obtain ⟨p, e, e', hr, ho⟩ := im_cmi_eval W.vec data a kw dz ha hd (by simp [requiredKw]) h4
  rw [e, e', hv p hr ho]
  exact ⟨rfl, rfl⟩

theorem e2e_ami_bayes {W : World} {nm : Bool} {data : List PyData} {a : PyName} {kw : Kw} {cond : CondKw PyData} (hc : cond.isVal = false) (ha : Names W.lower .mi a .bayes) (hd : 2 ≤ data.length) 
    (h4 : Only ["alpha", "K", "normalize", "offset", "base", "seed"] kw)
    {al : AlphaArg} {K : Option PyArg} {o : Option Int} {b : Base} 
    (h_alpha : (kw "alpha").bind PyVal.toAlpha = some al)
    (h_K : (kwOr kw "K" (.none)).toOptArg = some K)
    (h_normalize : (kwOr kw "normalize" (.bool false)).toBool = some nm)
    (h_offset : (kwOr kw "offset" (.int 0)).toOptInt = some o)
    (h_base : (kwOr kw "base" (W.b0)).toBase = some b)
    {xs : List IArr} (hx : data.mapM PyData.toIArr = some xs) (hnm : (nm && xs.all (fun x => !x.two)) = false) :
    imMI W.vec data a cond kw = biasMIArr (.bayes al K) xs o nm b := by
  have hv : ∀ p : Kw, (∀ r ∈ requiredKw .mi .bayes, p r = kw r) →
      (∀ o ∈ optionalKw W.b0 ⟨.mi, .bayes⟩, p o.1 = some (kwOr kw o.1 o.2)) →
      Est.result W.vec ⟨⟨.mi, .bayes⟩, data, none, p⟩ = biasMIArr (.bayes al K) xs o nm b := by
    intro p hr ho
    have g_alpha : Est.get ⟨⟨.mi, .bayes⟩, data, none, p⟩ "alpha" PyVal.toAlpha = some al := by
      show (p "alpha").bind _ = _
      rw [hr "alpha" (by simp [requiredKw])]; exact h_alpha
    have g_K : Est.get ⟨⟨.mi, .bayes⟩, data, none, p⟩ "K" PyVal.toOptArg = some K := by
      show (p "K").bind _ = _
      rw [ho ("K", .none) (by simp [optionalKw, ownKw, normalizeKw, commonKw, defaultNoise])]; exact h_K
    have g_normalize : Est.get ⟨⟨.mi, .bayes⟩, data, none, p⟩ "normalize" PyVal.toBool = some nm := by
      show (p "normalize").bind _ = _
      rw [ho ("normalize", .bool false) (by simp [optionalKw, ownKw, normalizeKw, commonKw, defaultNoise])]; exact h_normalize
    have g_offset : Est.get ⟨⟨.mi, .bayes⟩, data, none, p⟩ "offset" PyVal.toOptInt = some o := by
      show (p "offset").bind _ = _
      rw [ho ("offset", .int 0) (by simp [optionalKw, ownKw, normalizeKw, commonKw, defaultNoise])]; exact h_offset
    have g_base : Est.get ⟨⟨.mi, .bayes⟩, data, none, p⟩ "base" PyVal.toBase = some b := by
      show (p "base").bind _ = _
      rw [ho ("base", W.b0) (by simp [optionalKw, ownKw, normalizeKw, commonKw, defaultNoise])]; exact h_base
    refine result_vec ?_
    simp (maxSteps := 2000000) only [Est.vecVal, Est.miVec, Est.miArr, Option.bind_eq_bind, Option.bind_some, Option.bind_none, g_alpha, g_K, g_normalize, g_offset, g_base, hx, Est.bclass, hnm, Bool.false_eq_true, if_false]
  obtain ⟨p, e, hr, ho⟩ := im_mi_eval W.vec data a cond kw ha hc hd (by
    intro r hr
    simp only [requiredKw, List.mem_cons, List.not_mem_nil, or_false] at hr
    rcases hr with rfl
    · intro hn; rw [hn] at h_alpha; simp at h_alpha) h4
  rw [e, hv p hr ho]

theorem e2e_acmi_bayes {W : World} {nm : Bool} {data : List PyData} {a : PyName} {kw : Kw} {dz : PyData} (ha : Names W.lower .cmi a .bayes) (hd : 2 ≤ data.length) 
    (h4 : Only ["alpha", "K", "normalize", "offset", "base", "seed"] kw)
    {al : AlphaArg} {K : Option PyArg} {o : Option Int} {b : Base} 
    (h_alpha : (kw "alpha").bind PyVal.toAlpha = some al)
    (h_K : (kwOr kw "K" (.none)).toOptArg = some K)
    (h_normalize : (kwOr kw "normalize" (.bool false)).toBool = some nm)
    (h_offset : (kwOr kw "offset" (.int 0)).toOptInt = some o)
    (h_base : (kwOr kw "base" (W.b0)).toBase = some b)
    {xs : List IArr} (hx : data.mapM PyData.toIArr = some xs) {z : IArr} (hz : PyData.toCondIArr dz = some (.ok z)) (hnm : (nm && (xs.take 2 ++ [z]).all (fun x => !x.two)) = false) :
    imCMI W.vec data a (.val dz) kw = biasCMIArr (.bayes al K) xs z o nm b ∧
      imMI W.vec data a (.val dz) kw = biasCMIArr (.bayes al K) xs z o nm b := by
  have hv : ∀ p : Kw, (∀ r ∈ requiredKw .cmi .bayes, p r = kw r) →
      (∀ o ∈ optionalKw W.b0 ⟨.cmi, .bayes⟩, p o.1 = some (kwOr kw o.1 o.2)) →
      Est.result W.vec ⟨⟨.cmi, .bayes⟩, data, (some dz), p⟩ = biasCMIArr (.bayes al K) xs z o nm b := by
    intro p hr ho
    have g_alpha : Est.get ⟨⟨.cmi, .bayes⟩, data, (some dz), p⟩ "alpha" PyVal.toAlpha = some al := by
      show (p "alpha").bind _ = _
      rw [hr "alpha" (by simp [requiredKw])]; exact h_alpha
    have g_K : Est.get ⟨⟨.cmi, .bayes⟩, data, (some dz), p⟩ "K" PyVal.toOptArg = some K := by
      show (p "K").bind _ = _
      rw [ho ("K", .none) (by simp [optionalKw, ownKw, normalizeKw, commonKw, defaultNoise])]; exact h_K
    have g_normalize : Est.get ⟨⟨.cmi, .bayes⟩, data, (some dz), p⟩ "normalize" PyVal.toBool = some nm := by
      show (p "normalize").bind _ = _
      rw [ho ("normalize", .bool false) (by simp [optionalKw, ownKw, normalizeKw, commonKw, defaultNoise])]; exact h_normalize
    have g_offset : Est.get ⟨⟨.cmi, .bayes⟩, data, (some dz), p⟩ "offset" PyVal.toOptInt = some o := by
      show (p "offset").bind _ = _
      rw [ho ("offset", .int 0) (by simp [optionalKw, ownKw, normalizeKw, commonKw, defaultNoise])]; exact h_offset
    have g_base : Est.get ⟨⟨.cmi, .bayes⟩, data, (some dz), p⟩ "base" PyVal.toBase = some b := by
      show (p "base").bind _ = _
      rw [ho ("base", W.b0) (by simp [optionalKw, ownKw, normalizeKw, commonKw, defaultNoise])]; exact h_base
    refine result_vec ?_
    simp (maxSteps := 2000000) only [Est.vecVal, Est.cmiVec, Est.cmiArr, Option.bind_eq_bind, Option.bind_some, Option.bind_none, g_alpha, g_K, g_normalize, g_offset, g_base, hx, hz, Est.bclass, hnm, Bool.false_eq_true, if_false]
  obtain ⟨p, e, e', hr, ho⟩ := im_cmi_eval W.vec data a kw dz ha hd (by
    intro r hr
    simp only [requiredKw, List.mem_cons, List.not_mem_nil, or_false] at hr
    rcases hr with rfl
    · intro hn; rw [hn] at h_alpha; simp at h_alpha) h4
  rw [e, e', hv p hr ho]
  exact ⟨rfl, rfl⟩

theorem e2e_acmi_ragged_bayes {W : World} {nm : Bool} {data : List PyData} {a : PyName} {kw : Kw} {dz : PyData} (ha : Names W.lower .cmi a .bayes) (hd : 2 ≤ data.length) 
    (h4 : Only ["alpha", "K", "normalize", "offset", "base", "seed"] kw)
    {al : AlphaArg} {K : Option PyArg} {o : Option Int} {b : Base} 
    (h_alpha : (kw "alpha").bind PyVal.toAlpha = some al)
    (h_K : (kwOr kw "K" (.none)).toOptArg = some K)
    (h_normalize : (kwOr kw "normalize" (.bool false)).toBool = some nm)
    (h_offset : (kwOr kw "offset" (.int 0)).toOptInt = some o)
    (h_base : (kwOr kw "base" (W.b0)).toBase = some b)
    {xs : List IArr} (hx : data.mapM PyData.toIArr = some xs) (hz : PyData.toCondIArr dz = some (.error .valueError)) :
    imCMI W.vec data a (.val dz) kw = .error .valueError ∧
      imMI W.vec data a (.val dz) kw = .error .valueError := by
  have hv : ∀ p : Kw, (∀ r ∈ requiredKw .cmi .bayes, p r = kw r) →
      (∀ o ∈ optionalKw W.b0 ⟨.cmi, .bayes⟩, p o.1 = some (kwOr kw o.1 o.2)) →
      Est.result W.vec ⟨⟨.cmi, .bayes⟩, data, (some dz), p⟩ = .error .valueError := by
    intro p hr ho
    have g_alpha : Est.get ⟨⟨.cmi, .bayes⟩, data, (some dz), p⟩ "alpha" PyVal.toAlpha = some al := by
      show (p "alpha").bind _ = _
      rw [hr "alpha" (by simp [requiredKw])]; exact h_alpha
    have g_K : Est.get ⟨⟨.cmi, .bayes⟩, data, (some dz), p⟩ "K" PyVal.toOptArg = some K := by
      show (p "K").bind _ = _
      rw [ho ("K", .none) (by simp [optionalKw, ownKw, normalizeKw, commonKw, defaultNoise])]; exact h_K
    have g_normalize : Est.get ⟨⟨.cmi, .bayes⟩, data, (some dz), p⟩ "normalize" PyVal.toBool = some nm := by
      show (p "normalize").bind _ = _
      rw [ho ("normalize", .bool false) (by simp [optionalKw, ownKw, normalizeKw, commonKw, defaultNoise])]; exact h_normalize
    have g_offset : Est.get ⟨⟨.cmi, .bayes⟩, data, (some dz), p⟩ "offset" PyVal.toOptInt = some o := by
      show (p "offset").bind _ = _
      rw [ho ("offset", .int 0) (by simp [optionalKw, ownKw, normalizeKw, commonKw, defaultNoise])]; exact h_offset
    have g_base : Est.get ⟨⟨.cmi, .bayes⟩, data, (some dz), p⟩ "base" PyVal.toBase = some b := by
      show (p "base").bind _ = _
      rw [ho ("base", W.b0) (by simp [optionalKw, ownKw, normalizeKw, commonKw, defaultNoise])]; exact h_base
    refine result_vec ?_
    simp (maxSteps := 2000000) only [Est.vecVal, Est.cmiVec, Est.cmiArr, Option.bind_eq_bind, Option.bind_some, Option.bind_none, g_alpha, g_K, g_normalize, g_offset, g_base, hx, hz, Est.bclass, Bool.false_eq_true, if_false]
  obtain ⟨p, e, e', hr, ho⟩ := im_cmi_eval W.vec data a kw dz ha hd (by
    intro r hr
    simp only [requiredKw, List.mem_cons, List.not_mem_nil, or_false] at hr
    rcases hr with rfl
    · intro hn; rw [hn] at h_alpha; simp at h_alpha) h4
  rw [e, e', hv p hr ho]
  exact ⟨rfl, rfl⟩

theorem e2e_ami_ansb {W : World} {nm : Bool} {data : List PyData} {a : PyName} {kw : Kw} {cond : CondKw PyData} (hc : cond.isVal = false) (ha : Names W.lower .mi a .ansb) (hd : 2 ≤ data.length) 
    (h4 : Only ["undersampled", "normalize", "offset", "base", "seed"] kw)
    {us : ℝ} {o : Option Int} {b : Base} 
    (h_undersampled : (kwOr kw "undersampled" (.num (1 / 10))).toNum = some us)
    (h_normalize : (kwOr kw "normalize" (.bool false)).toBool = some nm)
    (h_offset : (kwOr kw "offset" (.int 0)).toOptInt = some o)
    (h_base : (kwOr kw "base" (W.b0)).toBase = some b)
    {xs : List IArr} (hx : data.mapM PyData.toIArr = some xs) (hnm : (nm && xs.all (fun x => !x.two)) = false) :
    imMI W.vec data a cond kw = biasMIArr (.ansb us) xs o nm b := by
  have hv : ∀ p : Kw, (∀ r ∈ requiredKw .mi .ansb, p r = kw r) →
      (∀ o ∈ optionalKw W.b0 ⟨.mi, .ansb⟩, p o.1 = some (kwOr kw o.1 o.2)) →
      Est.result W.vec ⟨⟨.mi, .ansb⟩, data, none, p⟩ = biasMIArr (.ansb us) xs o nm b := by
    intro p hr ho
    have g_undersampled : Est.get ⟨⟨.mi, .ansb⟩, data, none, p⟩ "undersampled" PyVal.toNum = some us := by
      show (p "undersampled").bind _ = _
      rw [ho ("undersampled", .num (1 / 10)) (by simp [optionalKw, ownKw, normalizeKw, commonKw, defaultNoise])]; exact h_undersampled
    have g_normalize : Est.get ⟨⟨.mi, .ansb⟩, data, none, p⟩ "normalize" PyVal.toBool = some nm := by
      show (p "normalize").bind _ = _
      rw [ho ("normalize", .bool false) (by simp [optionalKw, ownKw, normalizeKw, commonKw, defaultNoise])]; exact h_normalize
    have g_offset : Est.get ⟨⟨.mi, .ansb⟩, data, none, p⟩ "offset" PyVal.toOptInt = some o := by
      show (p "offset").bind _ = _
      rw [ho ("offset", .int 0) (by simp [optionalKw, ownKw, normalizeKw, commonKw, defaultNoise])]; exact h_offset
    have g_base : Est.get ⟨⟨.mi, .ansb⟩, data, none, p⟩ "base" PyVal.toBase = some b := by
      show (p "base").bind _ = _
      rw [ho ("base", W.b0) (by simp [optionalKw, ownKw, normalizeKw, commonKw, defaultNoise])]; exact h_base
    refine result_vec ?_
    simp (maxSteps := 2000000) only [Est.vecVal, Est.miVec, Est.miArr, Option.bind_eq_bind, Option.bind_some, Option.bind_none, g_undersampled, g_normalize, g_offset, g_base, hx, Est.bclass, hnm, Bool.false_eq_true, if_false]
  obtain ⟨p, e, hr, ho⟩ := im_mi_eval W.vec data a cond kw ha hc hd (by simp [requiredKw]) h4
  rw [e, hv p hr ho]

theorem e2e_acmi_ansb {W : World} {nm : Bool} {data : List PyData} {a : PyName} {kw : Kw} {dz : PyData} (ha : Names W.lower .cmi a .ansb) (hd : 2 ≤ data.length) 
    (h4 : Only ["undersampled", "normalize", "offset", "base", "seed"] kw)
    {us : ℝ} {o : Option Int} {b : Base} 
    (h_undersampled : (kwOr kw "undersampled" (.num (1 / 10))).toNum = some us)
    (h_normalize : (kwOr kw "normalize" (.bool false)).toBool = some nm)
    (h_offset : (kwOr kw "offset" (.int 0)).toOptInt = some o)
    (h_base : (kwOr kw "base" (W.b0)).toBase = some b)
    {xs : List IArr} (hx : data.mapM PyData.toIArr = some xs) {z : IArr} (hz : PyData.toCondIArr dz = some (.ok z)) (hnm : (nm && (xs.take 2 ++ [z]).all (fun x => !x.two)) = false) :
    imCMI W.vec data a (.val dz) kw = biasCMIArr (.ansb us) xs z o nm b ∧
      imMI W.vec data a (.val dz) kw = biasCMIArr (.ansb us) xs z o nm b := by
  have hv : ∀ p : Kw, (∀ r ∈ requiredKw .cmi .ansb, p r = kw r) →
      (∀ o ∈ optionalKw W.b0 ⟨.cmi, .ansb⟩, p o.1 = some (kwOr kw o.1 o.2)) →
      Est.result W.vec ⟨⟨.cmi, .ansb⟩, data, (some dz), p⟩ = biasCMIArr (.ansb us) xs z o nm b := by
    intro p hr ho
    have g_undersampled : Est.get ⟨⟨.cmi, .ansb⟩, data, (some dz), p⟩ "undersampled" PyVal.toNum = some us := by
      show (p "undersampled").bind _ = _
      rw [ho ("undersampled", .num (1 / 10)) (by simp [optionalKw, ownKw, normalizeKw, commonKw, defaultNoise])]; exact h_undersampled
    have g_normalize : Est.get ⟨⟨.cmi, .ansb⟩, data, (some dz), p⟩ "normalize" PyVal.toBool = some nm := by
      show (p "normalize").bind _ = _
      rw [ho ("normalize", .bool false) (by simp [optionalKw, ownKw, normalizeKw, commonKw, defaultNoise])]; exact h_normalize
    have g_offset : Est.get ⟨⟨.cmi, .ansb⟩, data, (some dz), p⟩ "offset" PyVal.toOptInt = some o := by
      show (p "offset").bind _ = _
      rw [ho ("offset", .int 0) (by simp [optionalKw, ownKw, normalizeKw, commonKw, defaultNoise])]; exact h_offset
    have g_base : Est.get ⟨⟨.cmi, .ansb⟩, data, (some dz), p⟩ "base" PyVal.toBase = some b := by
      show (p "base").bind _ = _
      rw [ho ("base", W.b0) (by simp [optionalKw, ownKw, normalizeKw, commonKw, defaultNoise])]; exact h_base
    refine result_vec ?_
    simp (maxSteps := 2000000) only [Est.vecVal, Est.cmiVec, Est.cmiArr, Option.bind_eq_bind, Option.bind_some, Option.bind_none, g_undersampled, g_normalize, g_offset, g_base, hx, hz, Est.bclass, hnm, Bool.false_eq_true, if_false]
  obtain ⟨p, e, e', hr, ho⟩ := im_cmi_eval W.vec data a kw dz ha hd (by simp [requiredKw]) h4
  rw [e, e', hv p hr ho]
  exact ⟨rfl, rfl⟩

theorem e2e_acmi_ragged_ansb {W : World} {nm : Bool} {data : List PyData} {a : PyName} {kw : Kw} {dz : PyData} (ha : Names W.lower .cmi a .ansb) (hd : 2 ≤ data.length) 
    (h4 : Only ["undersampled", "normalize", "offset", "base", "seed"] kw)
    {us : ℝ} {o : Option Int} {b : Base} 
    (h_undersampled : (kwOr kw "undersampled" (.num (1 / 10))).toNum = some us)
    (h_normalize : (kwOr kw "normalize" (.bool false)).toBool = some nm)
    (h_offset : (kwOr kw "offset" (.int 0)).toOptInt = some o)
    (h_base : (kwOr kw "base" (W.b0)).toBase = some b)
    {xs : List IArr} (hx : data.mapM PyData.toIArr = some xs) (hz : PyData.toCondIArr dz = some (.error .valueError)) :
    imCMI W.vec data a (.val dz) kw = .error .valueError ∧
      imMI W.vec data a (.val dz) kw = .error .valueError := by
  have hv : ∀ p : Kw, (∀ r ∈ requiredKw .cmi .ansb, p r = kw r) →
      (∀ o ∈ optionalKw W.b0 ⟨.cmi, .ansb⟩, p o.1 = some (kwOr kw o.1 o.2)) →
      Est.result W.vec ⟨⟨.cmi, .ansb⟩, data, (some dz), p⟩ = .error .valueError := by
    intro p hr ho
    have g_undersampled : Est.get ⟨⟨.cmi, .ansb⟩, data, (some dz), p⟩ "undersampled" PyVal.toNum = some us := by
      show (p "undersampled").bind _ = _
      rw [ho ("undersampled", .num (1 / 10)) (by simp [optionalKw, ownKw, normalizeKw, commonKw, defaultNoise])]; exact h_undersampled
    have g_normalize : Est.get ⟨⟨.cmi, .ansb⟩, data, (some dz), p⟩ "normalize" PyVal.toBool = some nm := by
      show (p "normalize").bind _ = _
      rw [ho ("normalize", .bool false) (by simp [optionalKw, ownKw, normalizeKw, commonKw, defaultNoise])]; exact h_normalize
    have g_offset : Est.get ⟨⟨.cmi, .ansb⟩, data, (some dz), p⟩ "offset" PyVal.toOptInt = some o := by
      show (p "offset").bind _ = _
      rw [ho ("offset", .int 0) (by simp [optionalKw, ownKw, normalizeKw, commonKw, defaultNoise])]; exact h_offset
    have g_base : Est.get ⟨⟨.cmi, .ansb⟩, data, (some dz), p⟩ "base" PyVal.toBase = some b := by
      show (p "base").bind _ = _
      rw [ho ("base", W.b0) (by simp [optionalKw, ownKw, normalizeKw, commonKw, defaultNoise])]; exact h_base
    refine result_vec ?_
    simp (maxSteps := 2000000) only [Est.vecVal, Est.cmiVec, Est.cmiArr, Option.bind_eq_bind, Option.bind_some, Option.bind_none, g_undersampled, g_normalize, g_offset, g_base, hx, hz, Est.bclass, Bool.false_eq_true, if_false]
  obtain ⟨p, e, e', hr, ho⟩ := im_cmi_eval W.vec data a kw dz ha hd (by simp [requiredKw]) h4
  rw [e, e', hv p hr ho]
  exact ⟨rfl, rfl⟩

theorem e2e_ami_nsb {W : World} {nm : Bool} {data : List PyData} {a : PyName} {kw : Kw} {cond : CondKw PyData} (hc : cond.isVal = false) (ha : Names W.lower .mi a .nsb) (hd : 2 ≤ data.length) 
    (h4 : Only ["K", "normalize", "offset", "base", "seed"] kw)
    {K : Option PyArg} {o : Option Int} {b : Base} 
    (h_K : (kwOr kw "K" (.none)).toOptArg = some K)
    (h_normalize : (kwOr kw "normalize" (.bool false)).toBool = some nm)
    (h_offset : (kwOr kw "offset" (.int 0)).toOptInt = some o)
    (h_base : (kwOr kw "base" (W.b0)).toBase = some b)
    {xs : List IArr} (hx : data.mapM PyData.toIArr = some xs) (hnm : (nm && xs.all (fun x => !x.two)) = false) :
    imMI W.vec data a cond kw = nsbMIArr W.find K xs o nm b := by
  have hv : ∀ p : Kw, (∀ r ∈ requiredKw .mi .nsb, p r = kw r) →
      (∀ o ∈ optionalKw W.b0 ⟨.mi, .nsb⟩, p o.1 = some (kwOr kw o.1 o.2)) →
      Est.result W.vec ⟨⟨.mi, .nsb⟩, data, none, p⟩ = nsbMIArr W.find K xs o nm b := by
    intro p hr ho
    have g_K : Est.get ⟨⟨.mi, .nsb⟩, data, none, p⟩ "K" PyVal.toOptArg = some K := by
      show (p "K").bind _ = _
      rw [ho ("K", .none) (by simp [optionalKw, ownKw, normalizeKw, commonKw, defaultNoise])]; exact h_K
    have g_normalize : Est.get ⟨⟨.mi, .nsb⟩, data, none, p⟩ "normalize" PyVal.toBool = some nm := by
      show (p "normalize").bind _ = _
      rw [ho ("normalize", .bool false) (by simp [optionalKw, ownKw, normalizeKw, commonKw, defaultNoise])]; exact h_normalize
    have g_offset : Est.get ⟨⟨.mi, .nsb⟩, data, none, p⟩ "offset" PyVal.toOptInt = some o := by
      show (p "offset").bind _ = _
      rw [ho ("offset", .int 0) (by simp [optionalKw, ownKw, normalizeKw, commonKw, defaultNoise])]; exact h_offset
    have g_base : Est.get ⟨⟨.mi, .nsb⟩, data, none, p⟩ "base" PyVal.toBase = some b := by
      show (p "base").bind _ = _
      rw [ho ("base", W.b0) (by simp [optionalKw, ownKw, normalizeKw, commonKw, defaultNoise])]; exact h_base
    refine result_vec ?_
    simp (maxSteps := 2000000) only [Est.vecVal, Est.miVec, Est.miArr, Option.bind_eq_bind, Option.bind_some, Option.bind_none, g_K, g_normalize, g_offset, g_base, hx, hnm, Bool.false_eq_true, if_false]
  obtain ⟨p, e, hr, ho⟩ := im_mi_eval W.vec data a cond kw ha hc hd (by simp [requiredKw]) h4
  rw [e, hv p hr ho]

theorem e2e_acmi_nsb {W : World} {nm : Bool} {data : List PyData} {a : PyName} {kw : Kw} {dz : PyData} (ha : Names W.lower .cmi a .nsb) (hd : 2 ≤ data.length) 
    (h4 : Only ["K", "normalize", "offset", "base", "seed"] kw)
    {K : Option PyArg} {o : Option Int} {b : Base} 
    (h_K : (kwOr kw "K" (.none)).toOptArg = some K)
    (h_normalize : (kwOr kw "normalize" (.bool false)).toBool = some nm)
    (h_offset : (kwOr kw "offset" (.int 0)).toOptInt = some o)
    (h_base : (kwOr kw "base" (W.b0)).toBase = some b)
    {xs : List IArr} (hx : data.mapM PyData.toIArr = some xs) {z : IArr} (hz : PyData.toCondIArr dz = some (.ok z)) (hnm : (nm && (xs.take 2 ++ [z]).all (fun x => !x.two)) = false) :
    imCMI W.vec data a (.val dz) kw = nsbCMIArr W.find K xs z o nm b ∧
      imMI W.vec data a (.val dz) kw = nsbCMIArr W.find K xs z o nm b := by
  have hv : ∀ p : Kw, (∀ r ∈ requiredKw .cmi .nsb, p r = kw r) →
      (∀ o ∈ optionalKw W.b0 ⟨.cmi, .nsb⟩, p o.1 = some (kwOr kw o.1 o.2)) →
      Est.result W.vec ⟨⟨.cmi, .nsb⟩, data, (some dz), p⟩ = nsbCMIArr W.find K xs z o nm b := by
    intro p hr ho
    have g_K : Est.get ⟨⟨.cmi, .nsb⟩, data, (some dz), p⟩ "K" PyVal.toOptArg = some K := by
      show (p "K").bind _ = _
      rw [ho ("K", .none) (by simp [optionalKw, ownKw, normalizeKw, commonKw, defaultNoise])]; exact h_K
    have g_normalize : Est.get ⟨⟨.cmi, .nsb⟩, data, (some dz), p⟩ "normalize" PyVal.toBool = some nm := by
      show (p "normalize").bind _ = _
      rw [ho ("normalize", .bool false) (by simp [optionalKw, ownKw, normalizeKw, commonKw, defaultNoise])]; exact h_normalize
    have g_offset : Est.get ⟨⟨.cmi, .nsb⟩, data, (some dz), p⟩ "offset" PyVal.toOptInt = some o := by
      show (p "offset").bind _ = _
      rw [ho ("offset", .int 0) (by simp [optionalKw, ownKw, normalizeKw, commonKw, defaultNoise])]; exact h_offset
    have g_base : Est.get ⟨⟨.cmi, .nsb⟩, data, (some dz), p⟩ "base" PyVal.toBase = some b := by
      show (p "base").bind _ = _
      rw [ho ("base", W.b0) (by simp [optionalKw, ownKw, normalizeKw, commonKw, defaultNoise])]; exact h_base
    refine result_vec ?_
    simp (maxSteps := 2000000) only [Est.vecVal, Est.cmiVec, Est.cmiArr, Option.bind_eq_bind, Option.bind_some, Option.bind_none, g_K, g_normalize, g_offset, g_base, hx, hz, hnm, Bool.false_eq_true, if_false]
  obtain ⟨p, e, e', hr, ho⟩ := im_cmi_eval W.vec data a kw dz ha hd (by simp [requiredKw]) h4
  rw [e, e', hv p hr ho]
  exact ⟨rfl, rfl⟩

theorem e2e_acmi_ragged_nsb {W : World} {nm : Bool} {data : List PyData} {a : PyName} {kw : Kw} {dz : PyData} (ha : Names W.lower .cmi a .nsb) (hd : 2 ≤ data.length) 
    (h4 : Only ["K", "normalize", "offset", "base", "seed"] kw)
    {K : Option PyArg} {o : Option Int} {b : Base} 
    (h_K : (kwOr kw "K" (.none)).toOptArg = some K)
    (h_normalize : (kwOr kw "normalize" (.bool false)).toBool = some nm)
    (h_offset : (kwOr kw "offset" (.int 0)).toOptInt = some o)
    (h_base : (kwOr kw "base" (W.b0)).toBase = some b)
    {xs : List IArr} (hx : data.mapM PyData.toIArr = some xs) (hz : PyData.toCondIArr dz = some (.error .valueError)) :
    imCMI W.vec data a (.val dz) kw = .error .valueError ∧
      imMI W.vec data a (.val dz) kw = .error .valueError := by
  have hv : ∀ p : Kw, (∀ r ∈ requiredKw .cmi .nsb, p r = kw r) →
      (∀ o ∈ optionalKw W.b0 ⟨.cmi, .nsb⟩, p o.1 = some (kwOr kw o.1 o.2)) →
      Est.result W.vec ⟨⟨.cmi, .nsb⟩, data, (some dz), p⟩ = .error .valueError := by
    intro p hr ho
    have g_K : Est.get ⟨⟨.cmi, .nsb⟩, data, (some dz), p⟩ "K" PyVal.toOptArg = some K := by
      show (p "K").bind _ = _
      rw [ho ("K", .none) (by simp [optionalKw, ownKw, normalizeKw, commonKw, defaultNoise])]; exact h_K
    have g_normalize : Est.get ⟨⟨.cmi, .nsb⟩, data, (some dz), p⟩ "normalize" PyVal.toBool = some nm := by
      show (p "normalize").bind _ = _
      rw [ho ("normalize", .bool false) (by simp [optionalKw, ownKw, normalizeKw, commonKw, defaultNoise])]; exact h_normalize
    have g_offset : Est.get ⟨⟨.cmi, .nsb⟩, data, (some dz), p⟩ "offset" PyVal.toOptInt = some o := by
      show (p "offset").bind _ = _
      rw [ho ("offset", .int 0) (by simp [optionalKw, ownKw, normalizeKw, commonKw, defaultNoise])]; exact h_offset
    have g_base : Est.get ⟨⟨.cmi, .nsb⟩, data, (some dz), p⟩ "base" PyVal.toBase = some b := by
      show (p "base").bind _ = _
      rw [ho ("base", W.b0) (by simp [optionalKw, ownKw, normalizeKw, commonKw, defaultNoise])]; exact h_base
    refine result_vec ?_
    simp (maxSteps := 2000000) only [Est.vecVal, Est.cmiVec, Est.cmiArr, Option.bind_eq_bind, Option.bind_some, Option.bind_none, g_K, g_normalize, g_offset, g_base, hx, hz, Bool.false_eq_true, if_false]
  obtain ⟨p, e, e', hr, ho⟩ := im_cmi_eval W.vec data a kw dz ha hd (by simp [requiredKw]) h4
  rw [e, e', hv p hr ho]
  exact ⟨rfl, rfl⟩

end Verif
