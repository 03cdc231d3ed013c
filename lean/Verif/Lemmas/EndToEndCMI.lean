import Verif.Lemmas.EndToEnd

/-!
# Lemmas: what each public call evaluates, estimator by estimator (CMI)

Generated by `tools/gen_e2e.py`.  Each lemma: with only accepted keyword arguments, the value of the public function is
the model function of the estimator, at the given keyword arguments or the documented defaults.
-/

set_option linter.unusedSimpArgs false
set_option linter.unusedVariables false

namespace Verif

theorem e2e_cmi_discrete {W : World} {data : List PyData} {a : PyName} {kw : Kw} {dz : PyData} (ha : Names W.lower .cmi a .discrete) (hd : 2 ≤ data.length) 
    (h4 : Only ["offset", "base", "seed"] kw)
    {o : Option Int} {b : Base} 
    (h_offset : (kwOr kw "offset" (.int 0)).toOptInt = some o)
    (h_base : (kwOr kw "base" (W.b0)).toBase = some b)
    {xs : List (List Int)} (hx : data.mapM PyData.toInts = some xs) {z : List Int} (hz : PyData.toInts dz = some z) :
    imCMI W data a (.val dz) kw = discreteCMI xs (some (.arr1 z)) o b false ∧
      imMI W data a (.val dz) kw = discreteCMI xs (some (.arr1 z)) o b false := by
  have hv : ∀ p : Kw, (∀ r ∈ requiredKw .cmi .discrete, p r = kw r) →
      (∀ o ∈ optionalKw W.b0 ⟨.cmi, .discrete⟩, p o.1 = some (kwOr kw o.1 o.2)) →
      Est.result W ⟨⟨.cmi, .discrete⟩, data, (some dz), p⟩ = discreteCMI xs (some (.arr1 z)) o b false := by
    intro p hr ho
    have g_offset : Est.get ⟨⟨.cmi, .discrete⟩, data, (some dz), p⟩ "offset" PyVal.toOptInt = some o := by
      show (p "offset").bind _ = _
      rw [ho ("offset", .int 0) (by simp [optionalKw, ownKw, normalizeKw, commonKw, defaultNoise])]; exact h_offset
    have g_base : Est.get ⟨⟨.cmi, .discrete⟩, data, (some dz), p⟩ "base" PyVal.toBase = some b := by
      show (p "base").bind _ = _
      rw [ho ("base", W.b0) (by simp [optionalKw, ownKw, normalizeKw, commonKw, defaultNoise])]; exact h_base
    simp only [Est.result, Est.cmi, bind, Option.bind, Option.getD_some, g_offset, g_base, hx, hz]
  obtain ⟨p, e, e', hr, ho⟩ := im_cmi_eval W data a kw dz ha hd (by simp [requiredKw]) h4
  rw [e, e', hv p hr ho]
  exact ⟨rfl, rfl⟩

theorem e2e_cmi_millerMadow {W : World} {data : List PyData} {a : PyName} {kw : Kw} {dz : PyData} (ha : Names W.lower .cmi a .millerMadow) (hd : 2 ≤ data.length) 
    (h4 : Only ["offset", "base", "seed"] kw)
    {o : Option Int} {b : Base} 
    (h_offset : (kwOr kw "offset" (.int 0)).toOptInt = some o)
    (h_base : (kwOr kw "base" (W.b0)).toBase = some b)
    {xs : List (List Int)} (hx : data.mapM PyData.toInts = some xs) {z : List Int} (hz : PyData.toInts dz = some z) :
    imCMI W data a (.val dz) kw = discreteCMI xs (some (.arr1 z)) o b true ∧
      imMI W data a (.val dz) kw = discreteCMI xs (some (.arr1 z)) o b true := by
  have hv : ∀ p : Kw, (∀ r ∈ requiredKw .cmi .millerMadow, p r = kw r) →
      (∀ o ∈ optionalKw W.b0 ⟨.cmi, .millerMadow⟩, p o.1 = some (kwOr kw o.1 o.2)) →
      Est.result W ⟨⟨.cmi, .millerMadow⟩, data, (some dz), p⟩ = discreteCMI xs (some (.arr1 z)) o b true := by
    intro p hr ho
    have g_offset : Est.get ⟨⟨.cmi, .millerMadow⟩, data, (some dz), p⟩ "offset" PyVal.toOptInt = some o := by
      show (p "offset").bind _ = _
      rw [ho ("offset", .int 0) (by simp [optionalKw, ownKw, normalizeKw, commonKw, defaultNoise])]; exact h_offset
    have g_base : Est.get ⟨⟨.cmi, .millerMadow⟩, data, (some dz), p⟩ "base" PyVal.toBase = some b := by
      show (p "base").bind _ = _
      rw [ho ("base", W.b0) (by simp [optionalKw, ownKw, normalizeKw, commonKw, defaultNoise])]; exact h_base
    simp only [Est.result, Est.cmi, bind, Option.bind, Option.getD_some, g_offset, g_base, hx, hz]
  obtain ⟨p, e, e', hr, ho⟩ := im_cmi_eval W data a kw dz ha hd (by simp [requiredKw]) h4
  rw [e, e', hv p hr ho]
  exact ⟨rfl, rfl⟩

theorem e2e_cmi_grassberger {W : World} {data : List PyData} {a : PyName} {kw : Kw} {dz : PyData} (ha : Names W.lower .cmi a .grassberger) (hd : 2 ≤ data.length) 
    (h4 : Only ["normalize", "offset", "base", "seed"] kw)
    {o : Option Int} {b : Base} 
    (h_normalize : (kwOr kw "normalize" (.bool false)).toBool = some false)
    (h_offset : (kwOr kw "offset" (.int 0)).toOptInt = some o)
    (h_base : (kwOr kw "base" (W.b0)).toBase = some b)
    {xs : List (List Int)} (hx : data.mapM PyData.toInts = some xs) {z : List Int} (hz : PyData.toInts dz = some z) :
    imCMI W data a (.val dz) kw = biasCMI .grassberger xs z o b ∧
      imMI W data a (.val dz) kw = biasCMI .grassberger xs z o b := by
  have hv : ∀ p : Kw, (∀ r ∈ requiredKw .cmi .grassberger, p r = kw r) →
      (∀ o ∈ optionalKw W.b0 ⟨.cmi, .grassberger⟩, p o.1 = some (kwOr kw o.1 o.2)) →
      Est.result W ⟨⟨.cmi, .grassberger⟩, data, (some dz), p⟩ = biasCMI .grassberger xs z o b := by
    intro p hr ho
    have g_normalize : Est.get ⟨⟨.cmi, .grassberger⟩, data, (some dz), p⟩ "normalize" PyVal.toBool = some false := by
      show (p "normalize").bind _ = _
      rw [ho ("normalize", .bool false) (by simp [optionalKw, ownKw, normalizeKw, commonKw, defaultNoise])]; exact h_normalize
    have g_offset : Est.get ⟨⟨.cmi, .grassberger⟩, data, (some dz), p⟩ "offset" PyVal.toOptInt = some o := by
      show (p "offset").bind _ = _
      rw [ho ("offset", .int 0) (by simp [optionalKw, ownKw, normalizeKw, commonKw, defaultNoise])]; exact h_offset
    have g_base : Est.get ⟨⟨.cmi, .grassberger⟩, data, (some dz), p⟩ "base" PyVal.toBase = some b := by
      show (p "base").bind _ = _
      rw [ho ("base", W.b0) (by simp [optionalKw, ownKw, normalizeKw, commonKw, defaultNoise])]; exact h_base
    simp only [Est.result, Est.cmi, bind, Option.bind, Option.getD_some, g_normalize, g_offset, g_base, hx, hz, Est.bclass, Bool.false_eq_true, if_false]
  obtain ⟨p, e, e', hr, ho⟩ := im_cmi_eval W data a kw dz ha hd (by simp [requiredKw]) h4
  rw [e, e', hv p hr ho]
  exact ⟨rfl, rfl⟩

theorem e2e_cmi_chaoShen {W : World} {data : List PyData} {a : PyName} {kw : Kw} {dz : PyData} (ha : Names W.lower .cmi a .chaoShen) (hd : 2 ≤ data.length) 
    (h4 : Only ["normalize", "offset", "base", "seed"] kw)
    {o : Option Int} {b : Base} 
    (h_normalize : (kwOr kw "normalize" (.bool false)).toBool = some false)
    (h_offset : (kwOr kw "offset" (.int 0)).toOptInt = some o)
    (h_base : (kwOr kw "base" (W.b0)).toBase = some b)
    {xs : List (List Int)} (hx : data.mapM PyData.toInts = some xs) {z : List Int} (hz : PyData.toInts dz = some z) :
    imCMI W data a (.val dz) kw = biasCMI .chaoShen xs z o b ∧
      imMI W data a (.val dz) kw = biasCMI .chaoShen xs z o b := by
  have hv : ∀ p : Kw, (∀ r ∈ requiredKw .cmi .chaoShen, p r = kw r) →
      (∀ o ∈ optionalKw W.b0 ⟨.cmi, .chaoShen⟩, p o.1 = some (kwOr kw o.1 o.2)) →
      Est.result W ⟨⟨.cmi, .chaoShen⟩, data, (some dz), p⟩ = biasCMI .chaoShen xs z o b := by
    intro p hr ho
    have g_normalize : Est.get ⟨⟨.cmi, .chaoShen⟩, data, (some dz), p⟩ "normalize" PyVal.toBool = some false := by
      show (p "normalize").bind _ = _
      rw [ho ("normalize", .bool false) (by simp [optionalKw, ownKw, normalizeKw, commonKw, defaultNoise])]; exact h_normalize
    have g_offset : Est.get ⟨⟨.cmi, .chaoShen⟩, data, (some dz), p⟩ "offset" PyVal.toOptInt = some o := by
      show (p "offset").bind _ = _
      rw [ho ("offset", .int 0) (by simp [optionalKw, ownKw, normalizeKw, commonKw, defaultNoise])]; exact h_offset
    have g_base : Est.get ⟨⟨.cmi, .chaoShen⟩, data, (some dz), p⟩ "base" PyVal.toBase = some b := by
      show (p "base").bind _ = _
      rw [ho ("base", W.b0) (by simp [optionalKw, ownKw, normalizeKw, commonKw, defaultNoise])]; exact h_base
    simp only [Est.result, Est.cmi, bind, Option.bind, Option.getD_some, g_normalize, g_offset, g_base, hx, hz, Est.bclass, Bool.false_eq_true, if_false]
  obtain ⟨p, e, e', hr, ho⟩ := im_cmi_eval W data a kw dz ha hd (by simp [requiredKw]) h4
  rw [e, e', hv p hr ho]
  exact ⟨rfl, rfl⟩

theorem e2e_cmi_chaoWangJost {W : World} {data : List PyData} {a : PyName} {kw : Kw} {dz : PyData} (ha : Names W.lower .cmi a .chaoWangJost) (hd : 2 ≤ data.length) 
    (h4 : Only ["normalize", "offset", "base", "seed"] kw)
    {o : Option Int} {b : Base} 
    (h_normalize : (kwOr kw "normalize" (.bool false)).toBool = some false)
    (h_offset : (kwOr kw "offset" (.int 0)).toOptInt = some o)
    (h_base : (kwOr kw "base" (W.b0)).toBase = some b)
    {xs : List (List Int)} (hx : data.mapM PyData.toInts = some xs) {z : List Int} (hz : PyData.toInts dz = some z) :
    imCMI W data a (.val dz) kw = biasCMI .chaoWangJost xs z o b ∧
      imMI W data a (.val dz) kw = biasCMI .chaoWangJost xs z o b := by
  have hv : ∀ p : Kw, (∀ r ∈ requiredKw .cmi .chaoWangJost, p r = kw r) →
      (∀ o ∈ optionalKw W.b0 ⟨.cmi, .chaoWangJost⟩, p o.1 = some (kwOr kw o.1 o.2)) →
      Est.result W ⟨⟨.cmi, .chaoWangJost⟩, data, (some dz), p⟩ = biasCMI .chaoWangJost xs z o b := by
    intro p hr ho
    have g_normalize : Est.get ⟨⟨.cmi, .chaoWangJost⟩, data, (some dz), p⟩ "normalize" PyVal.toBool = some false := by
      show (p "normalize").bind _ = _
      rw [ho ("normalize", .bool false) (by simp [optionalKw, ownKw, normalizeKw, commonKw, defaultNoise])]; exact h_normalize
    have g_offset : Est.get ⟨⟨.cmi, .chaoWangJost⟩, data, (some dz), p⟩ "offset" PyVal.toOptInt = some o := by
      show (p "offset").bind _ = _
      rw [ho ("offset", .int 0) (by simp [optionalKw, ownKw, normalizeKw, commonKw, defaultNoise])]; exact h_offset
    have g_base : Est.get ⟨⟨.cmi, .chaoWangJost⟩, data, (some dz), p⟩ "base" PyVal.toBase = some b := by
      show (p "base").bind _ = _
      rw [ho ("base", W.b0) (by simp [optionalKw, ownKw, normalizeKw, commonKw, defaultNoise])]; exact h_base
    simp only [Est.result, Est.cmi, bind, Option.bind, Option.getD_some, g_normalize, g_offset, g_base, hx, hz, Est.bclass, Bool.false_eq_true, if_false]
  obtain ⟨p, e, e', hr, ho⟩ := im_cmi_eval W data a kw dz ha hd (by simp [requiredKw]) h4
  rw [e, e', hv p hr ho]
  exact ⟨rfl, rfl⟩

theorem e2e_cmi_shrink {W : World} {data : List PyData} {a : PyName} {kw : Kw} {dz : PyData} (ha : Names W.lower .cmi a .shrink) (hd : 2 ≤ data.length) 
    (h4 : Only ["normalize", "offset", "base", "seed"] kw)
    {o : Option Int} {b : Base} 
    (h_normalize : (kwOr kw "normalize" (.bool false)).toBool = some false)
    (h_offset : (kwOr kw "offset" (.int 0)).toOptInt = some o)
    (h_base : (kwOr kw "base" (W.b0)).toBase = some b)
    {xs : List (List Int)} (hx : data.mapM PyData.toInts = some xs) {z : List Int} (hz : PyData.toInts dz = some z) :
    imCMI W data a (.val dz) kw = biasCMI .shrink xs z o b ∧
      imMI W data a (.val dz) kw = biasCMI .shrink xs z o b := by
  have hv : ∀ p : Kw, (∀ r ∈ requiredKw .cmi .shrink, p r = kw r) →
      (∀ o ∈ optionalKw W.b0 ⟨.cmi, .shrink⟩, p o.1 = some (kwOr kw o.1 o.2)) →
      Est.result W ⟨⟨.cmi, .shrink⟩, data, (some dz), p⟩ = biasCMI .shrink xs z o b := by
    intro p hr ho
    have g_normalize : Est.get ⟨⟨.cmi, .shrink⟩, data, (some dz), p⟩ "normalize" PyVal.toBool = some false := by
      show (p "normalize").bind _ = _
      rw [ho ("normalize", .bool false) (by simp [optionalKw, ownKw, normalizeKw, commonKw, defaultNoise])]; exact h_normalize
    have g_offset : Est.get ⟨⟨.cmi, .shrink⟩, data, (some dz), p⟩ "offset" PyVal.toOptInt = some o := by
      show (p "offset").bind _ = _
      rw [ho ("offset", .int 0) (by simp [optionalKw, ownKw, normalizeKw, commonKw, defaultNoise])]; exact h_offset
    have g_base : Est.get ⟨⟨.cmi, .shrink⟩, data, (some dz), p⟩ "base" PyVal.toBase = some b := by
      show (p "base").bind _ = _
      rw [ho ("base", W.b0) (by simp [optionalKw, ownKw, normalizeKw, commonKw, defaultNoise])]; exact h_base
    simp only [Est.result, Est.cmi, bind, Option.bind, Option.getD_some, g_normalize, g_offset, g_base, hx, hz, Est.bclass, Bool.false_eq_true, if_false]
  obtain ⟨p, e, e', hr, ho⟩ := im_cmi_eval W data a kw dz ha hd (by simp [requiredKw]) h4
  rw [e, e', hv p hr ho]
  exact ⟨rfl, rfl⟩

theorem e2e_cmi_zhang {W : World} {data : List PyData} {a : PyName} {kw : Kw} {dz : PyData} (ha : Names W.lower .cmi a .zhang) (hd : 2 ≤ data.length) 
    (h4 : Only ["normalize", "offset", "base", "seed"] kw)
    {o : Option Int} {b : Base} 
    (h_normalize : (kwOr kw "normalize" (.bool false)).toBool = some false)
    (h_offset : (kwOr kw "offset" (.int 0)).toOptInt = some o)
    (h_base : (kwOr kw "base" (W.b0)).toBase = some b)
    {xs : List (List Int)} (hx : data.mapM PyData.toInts = some xs) {z : List Int} (hz : PyData.toInts dz = some z) :
    imCMI W data a (.val dz) kw = biasCMI .zhang xs z o b ∧
      imMI W data a (.val dz) kw = biasCMI .zhang xs z o b := by
  have hv : ∀ p : Kw, (∀ r ∈ requiredKw .cmi .zhang, p r = kw r) →
      (∀ o ∈ optionalKw W.b0 ⟨.cmi, .zhang⟩, p o.1 = some (kwOr kw o.1 o.2)) →
      Est.result W ⟨⟨.cmi, .zhang⟩, data, (some dz), p⟩ = biasCMI .zhang xs z o b := by
    intro p hr ho
    have g_normalize : Est.get ⟨⟨.cmi, .zhang⟩, data, (some dz), p⟩ "normalize" PyVal.toBool = some false := by
      show (p "normalize").bind _ = _
      rw [ho ("normalize", .bool false) (by simp [optionalKw, ownKw, normalizeKw, commonKw, defaultNoise])]; exact h_normalize
    have g_offset : Est.get ⟨⟨.cmi, .zhang⟩, data, (some dz), p⟩ "offset" PyVal.toOptInt = some o := by
      show (p "offset").bind _ = _
      rw [ho ("offset", .int 0) (by simp [optionalKw, ownKw, normalizeKw, commonKw, defaultNoise])]; exact h_offset
    have g_base : Est.get ⟨⟨.cmi, .zhang⟩, data, (some dz), p⟩ "base" PyVal.toBase = some b := by
      show (p "base").bind _ = _
      rw [ho ("base", W.b0) (by simp [optionalKw, ownKw, normalizeKw, commonKw, defaultNoise])]; exact h_base
    simp only [Est.result, Est.cmi, bind, Option.bind, Option.getD_some, g_normalize, g_offset, g_base, hx, hz, Est.bclass, Bool.false_eq_true, if_false]
  obtain ⟨p, e, e', hr, ho⟩ := im_cmi_eval W data a kw dz ha hd (by simp [requiredKw]) h4
  rw [e, e', hv p hr ho]
  exact ⟨rfl, rfl⟩

theorem e2e_cmi_bonachela {W : World} {data : List PyData} {a : PyName} {kw : Kw} {dz : PyData} (ha : Names W.lower .cmi a .bonachela) (hd : 2 ≤ data.length) 
    (h4 : Only ["normalize", "offset", "base", "seed"] kw)
    {o : Option Int} {b : Base} 
    (h_normalize : (kwOr kw "normalize" (.bool false)).toBool = some false)
    (h_offset : (kwOr kw "offset" (.int 0)).toOptInt = some o)
    (h_base : (kwOr kw "base" (W.b0)).toBase = some b)
    {xs : List (List Int)} (hx : data.mapM PyData.toInts = some xs) {z : List Int} (hz : PyData.toInts dz = some z) :
    imCMI W data a (.val dz) kw = biasCMI .bonachela xs z o b ∧
      imMI W data a (.val dz) kw = biasCMI .bonachela xs z o b := by
  have hv : ∀ p : Kw, (∀ r ∈ requiredKw .cmi .bonachela, p r = kw r) →
      (∀ o ∈ optionalKw W.b0 ⟨.cmi, .bonachela⟩, p o.1 = some (kwOr kw o.1 o.2)) →
      Est.result W ⟨⟨.cmi, .bonachela⟩, data, (some dz), p⟩ = biasCMI .bonachela xs z o b := by
    intro p hr ho
    have g_normalize : Est.get ⟨⟨.cmi, .bonachela⟩, data, (some dz), p⟩ "normalize" PyVal.toBool = some false := by
      show (p "normalize").bind _ = _
      rw [ho ("normalize", .bool false) (by simp [optionalKw, ownKw, normalizeKw, commonKw, defaultNoise])]; exact h_normalize
    have g_offset : Est.get ⟨⟨.cmi, .bonachela⟩, data, (some dz), p⟩ "offset" PyVal.toOptInt = some o := by
      show (p "offset").bind _ = _
      rw [ho ("offset", .int 0) (by simp [optionalKw, ownKw, normalizeKw, commonKw, defaultNoise])]; exact h_offset
    have g_base : Est.get ⟨⟨.cmi, .bonachela⟩, data, (some dz), p⟩ "base" PyVal.toBase = some b := by
      show (p "base").bind _ = _
      rw [ho ("base", W.b0) (by simp [optionalKw, ownKw, normalizeKw, commonKw, defaultNoise])]; exact h_base
    simp only [Est.result, Est.cmi, bind, Option.bind, Option.getD_some, g_normalize, g_offset, g_base, hx, hz, Est.bclass, Bool.false_eq_true, if_false]
  obtain ⟨p, e, e', hr, ho⟩ := im_cmi_eval W data a kw dz ha hd (by simp [requiredKw]) h4
  rw [e, e', hv p hr ho]
  exact ⟨rfl, rfl⟩

theorem e2e_cmi_bayes {W : World} {data : List PyData} {a : PyName} {kw : Kw} {dz : PyData} (ha : Names W.lower .cmi a .bayes) (hd : 2 ≤ data.length) 
    (h4 : Only ["alpha", "K", "normalize", "offset", "base", "seed"] kw)
    {al : AlphaArg} {K : Option PyArg} {o : Option Int} {b : Base} 
    (h_alpha : (kw "alpha").bind PyVal.toAlpha = some al)
    (h_K : (kwOr kw "K" (.none)).toOptArg = some K)
    (h_normalize : (kwOr kw "normalize" (.bool false)).toBool = some false)
    (h_offset : (kwOr kw "offset" (.int 0)).toOptInt = some o)
    (h_base : (kwOr kw "base" (W.b0)).toBase = some b)
    {xs : List (List Int)} (hx : data.mapM PyData.toInts = some xs) {z : List Int} (hz : PyData.toInts dz = some z) :
    imCMI W data a (.val dz) kw = biasCMI (.bayes al K) xs z o b ∧
      imMI W data a (.val dz) kw = biasCMI (.bayes al K) xs z o b := by
  have hv : ∀ p : Kw, (∀ r ∈ requiredKw .cmi .bayes, p r = kw r) →
      (∀ o ∈ optionalKw W.b0 ⟨.cmi, .bayes⟩, p o.1 = some (kwOr kw o.1 o.2)) →
      Est.result W ⟨⟨.cmi, .bayes⟩, data, (some dz), p⟩ = biasCMI (.bayes al K) xs z o b := by
    intro p hr ho
    have g_alpha : Est.get ⟨⟨.cmi, .bayes⟩, data, (some dz), p⟩ "alpha" PyVal.toAlpha = some al := by
      show (p "alpha").bind _ = _
      rw [hr "alpha" (by simp [requiredKw])]; exact h_alpha
    have g_K : Est.get ⟨⟨.cmi, .bayes⟩, data, (some dz), p⟩ "K" PyVal.toOptArg = some K := by
      show (p "K").bind _ = _
      rw [ho ("K", .none) (by simp [optionalKw, ownKw, normalizeKw, commonKw, defaultNoise])]; exact h_K
    have g_normalize : Est.get ⟨⟨.cmi, .bayes⟩, data, (some dz), p⟩ "normalize" PyVal.toBool = some false := by
      show (p "normalize").bind _ = _
      rw [ho ("normalize", .bool false) (by simp [optionalKw, ownKw, normalizeKw, commonKw, defaultNoise])]; exact h_normalize
    have g_offset : Est.get ⟨⟨.cmi, .bayes⟩, data, (some dz), p⟩ "offset" PyVal.toOptInt = some o := by
      show (p "offset").bind _ = _
      rw [ho ("offset", .int 0) (by simp [optionalKw, ownKw, normalizeKw, commonKw, defaultNoise])]; exact h_offset
    have g_base : Est.get ⟨⟨.cmi, .bayes⟩, data, (some dz), p⟩ "base" PyVal.toBase = some b := by
      show (p "base").bind _ = _
      rw [ho ("base", W.b0) (by simp [optionalKw, ownKw, normalizeKw, commonKw, defaultNoise])]; exact h_base
    simp only [Est.result, Est.cmi, bind, Option.bind, Option.getD_some, g_alpha, g_K, g_normalize, g_offset, g_base, hx, hz, Est.bclass, Bool.false_eq_true, if_false]
  obtain ⟨p, e, e', hr, ho⟩ := im_cmi_eval W data a kw dz ha hd (by
    intro r hr
    simp only [requiredKw, List.mem_cons, List.not_mem_nil, or_false] at hr
    rcases hr with rfl
    · intro hn; rw [hn] at h_alpha; simp at h_alpha) h4
  rw [e, e', hv p hr ho]
  exact ⟨rfl, rfl⟩

theorem e2e_cmi_ansb {W : World} {data : List PyData} {a : PyName} {kw : Kw} {dz : PyData} (ha : Names W.lower .cmi a .ansb) (hd : 2 ≤ data.length) 
    (h4 : Only ["undersampled", "normalize", "offset", "base", "seed"] kw)
    {us : ℝ} {o : Option Int} {b : Base} 
    (h_undersampled : (kwOr kw "undersampled" (.num (1 / 10))).toNum = some us)
    (h_normalize : (kwOr kw "normalize" (.bool false)).toBool = some false)
    (h_offset : (kwOr kw "offset" (.int 0)).toOptInt = some o)
    (h_base : (kwOr kw "base" (W.b0)).toBase = some b)
    {xs : List (List Int)} (hx : data.mapM PyData.toInts = some xs) {z : List Int} (hz : PyData.toInts dz = some z) :
    imCMI W data a (.val dz) kw = biasCMI (.ansb us) xs z o b ∧
      imMI W data a (.val dz) kw = biasCMI (.ansb us) xs z o b := by
  have hv : ∀ p : Kw, (∀ r ∈ requiredKw .cmi .ansb, p r = kw r) →
      (∀ o ∈ optionalKw W.b0 ⟨.cmi, .ansb⟩, p o.1 = some (kwOr kw o.1 o.2)) →
      Est.result W ⟨⟨.cmi, .ansb⟩, data, (some dz), p⟩ = biasCMI (.ansb us) xs z o b := by
    intro p hr ho
    have g_undersampled : Est.get ⟨⟨.cmi, .ansb⟩, data, (some dz), p⟩ "undersampled" PyVal.toNum = some us := by
      show (p "undersampled").bind _ = _
      rw [ho ("undersampled", .num (1 / 10)) (by simp [optionalKw, ownKw, normalizeKw, commonKw, defaultNoise])]; exact h_undersampled
    have g_normalize : Est.get ⟨⟨.cmi, .ansb⟩, data, (some dz), p⟩ "normalize" PyVal.toBool = some false := by
      show (p "normalize").bind _ = _
      rw [ho ("normalize", .bool false) (by simp [optionalKw, ownKw, normalizeKw, commonKw, defaultNoise])]; exact h_normalize
    have g_offset : Est.get ⟨⟨.cmi, .ansb⟩, data, (some dz), p⟩ "offset" PyVal.toOptInt = some o := by
      show (p "offset").bind _ = _
      rw [ho ("offset", .int 0) (by simp [optionalKw, ownKw, normalizeKw, commonKw, defaultNoise])]; exact h_offset
    have g_base : Est.get ⟨⟨.cmi, .ansb⟩, data, (some dz), p⟩ "base" PyVal.toBase = some b := by
      show (p "base").bind _ = _
      rw [ho ("base", W.b0) (by simp [optionalKw, ownKw, normalizeKw, commonKw, defaultNoise])]; exact h_base
    simp only [Est.result, Est.cmi, bind, Option.bind, Option.getD_some, g_undersampled, g_normalize, g_offset, g_base, hx, hz, Est.bclass, Bool.false_eq_true, if_false]
  obtain ⟨p, e, e', hr, ho⟩ := im_cmi_eval W data a kw dz ha hd (by simp [requiredKw]) h4
  rw [e, e', hv p hr ho]
  exact ⟨rfl, rfl⟩

theorem e2e_cmi_nsb {W : World} {data : List PyData} {a : PyName} {kw : Kw} {dz : PyData} (ha : Names W.lower .cmi a .nsb) (hd : 2 ≤ data.length) 
    (h4 : Only ["K", "normalize", "offset", "base", "seed"] kw)
    {K : Option PyArg} {o : Option Int} {b : Base} 
    (h_K : (kwOr kw "K" (.none)).toOptArg = some K)
    (h_normalize : (kwOr kw "normalize" (.bool false)).toBool = some false)
    (h_offset : (kwOr kw "offset" (.int 0)).toOptInt = some o)
    (h_base : (kwOr kw "base" (W.b0)).toBase = some b)
    {xs : List (List Int)} (hx : data.mapM PyData.toInts = some xs) {z : List Int} (hz : PyData.toInts dz = some z) :
    imCMI W data a (.val dz) kw = nsbCMI W.find K xs z o b ∧
      imMI W data a (.val dz) kw = nsbCMI W.find K xs z o b := by
  have hv : ∀ p : Kw, (∀ r ∈ requiredKw .cmi .nsb, p r = kw r) →
      (∀ o ∈ optionalKw W.b0 ⟨.cmi, .nsb⟩, p o.1 = some (kwOr kw o.1 o.2)) →
      Est.result W ⟨⟨.cmi, .nsb⟩, data, (some dz), p⟩ = nsbCMI W.find K xs z o b := by
    intro p hr ho
    have g_K : Est.get ⟨⟨.cmi, .nsb⟩, data, (some dz), p⟩ "K" PyVal.toOptArg = some K := by
      show (p "K").bind _ = _
      rw [ho ("K", .none) (by simp [optionalKw, ownKw, normalizeKw, commonKw, defaultNoise])]; exact h_K
    have g_normalize : Est.get ⟨⟨.cmi, .nsb⟩, data, (some dz), p⟩ "normalize" PyVal.toBool = some false := by
      show (p "normalize").bind _ = _
      rw [ho ("normalize", .bool false) (by simp [optionalKw, ownKw, normalizeKw, commonKw, defaultNoise])]; exact h_normalize
    have g_offset : Est.get ⟨⟨.cmi, .nsb⟩, data, (some dz), p⟩ "offset" PyVal.toOptInt = some o := by
      show (p "offset").bind _ = _
      rw [ho ("offset", .int 0) (by simp [optionalKw, ownKw, normalizeKw, commonKw, defaultNoise])]; exact h_offset
    have g_base : Est.get ⟨⟨.cmi, .nsb⟩, data, (some dz), p⟩ "base" PyVal.toBase = some b := by
      show (p "base").bind _ = _
      rw [ho ("base", W.b0) (by simp [optionalKw, ownKw, normalizeKw, commonKw, defaultNoise])]; exact h_base
    simp only [Est.result, Est.cmi, bind, Option.bind, Option.getD_some, g_K, g_normalize, g_offset, g_base, hx, hz, Bool.false_eq_true, if_false]
  obtain ⟨p, e, e', hr, ho⟩ := im_cmi_eval W data a kw dz ha hd (by simp [requiredKw]) h4
  rw [e, e', hv p hr ho]
  exact ⟨rfl, rfl⟩

theorem e2e_cmi_ordinal {W : World} {data : List PyData} {a : PyName} {kw : Kw} {dz : PyData} (ha : Names W.lower .cmi a .ordinal) (hd : 2 ≤ data.length) 
    (h4 : Only ["embedding_dim", "step_size", "stable", "offset", "base", "seed"] kw)
    {d : PyArg} {s : PyArg} {st : Bool} {o : Option Int} {b : Base} 
    (h_embedding_dim : (kwOr kw "embedding_dim" (.none)).toArg = some d)
    (h_step_size : (kwOr kw "step_size" (.int 1)).toArg = some s)
    (h_stable : (kwOr kw "stable" (.bool false)).toBool = some st)
    (h_offset : (kwOr kw "offset" (.int 0)).toOptInt = some o)
    (h_base : (kwOr kw "base" (W.b0)).toBase = some b)
    {xs : List (List ℝ)} (hx : data.mapM PyData.toSeries = some xs) {z : List ℝ} (hz : PyData.toSeries dz = some z) :
    imCMI W data a (.val dz) kw = ordCMI W.quick xs (some z) { dim := d, step := s, stable := st } o b ∧
      imMI W data a (.val dz) kw = ordCMI W.quick xs (some z) { dim := d, step := s, stable := st } o b := by
  have hv : ∀ p : Kw, (∀ r ∈ requiredKw .cmi .ordinal, p r = kw r) →
      (∀ o ∈ optionalKw W.b0 ⟨.cmi, .ordinal⟩, p o.1 = some (kwOr kw o.1 o.2)) →
      Est.result W ⟨⟨.cmi, .ordinal⟩, data, (some dz), p⟩ = ordCMI W.quick xs (some z) { dim := d, step := s, stable := st } o b := by
    intro p hr ho
    have g_embedding_dim : Est.get ⟨⟨.cmi, .ordinal⟩, data, (some dz), p⟩ "embedding_dim" PyVal.toArg = some d := by
      show (p "embedding_dim").bind _ = _
      rw [ho ("embedding_dim", .none) (by simp [optionalKw, ownKw, normalizeKw, commonKw, defaultNoise])]; exact h_embedding_dim
    have g_step_size : Est.get ⟨⟨.cmi, .ordinal⟩, data, (some dz), p⟩ "step_size" PyVal.toArg = some s := by
      show (p "step_size").bind _ = _
      rw [ho ("step_size", .int 1) (by simp [optionalKw, ownKw, normalizeKw, commonKw, defaultNoise])]; exact h_step_size
    have g_stable : Est.get ⟨⟨.cmi, .ordinal⟩, data, (some dz), p⟩ "stable" PyVal.toBool = some st := by
      show (p "stable").bind _ = _
      rw [ho ("stable", .bool false) (by simp [optionalKw, ownKw, normalizeKw, commonKw, defaultNoise])]; exact h_stable
    have g_offset : Est.get ⟨⟨.cmi, .ordinal⟩, data, (some dz), p⟩ "offset" PyVal.toOptInt = some o := by
      show (p "offset").bind _ = _
      rw [ho ("offset", .int 0) (by simp [optionalKw, ownKw, normalizeKw, commonKw, defaultNoise])]; exact h_offset
    have g_base : Est.get ⟨⟨.cmi, .ordinal⟩, data, (some dz), p⟩ "base" PyVal.toBase = some b := by
      show (p "base").bind _ = _
      rw [ho ("base", W.b0) (by simp [optionalKw, ownKw, normalizeKw, commonKw, defaultNoise])]; exact h_base
    simp only [Est.result, Est.cmi, bind, Option.bind, Option.getD_some, g_embedding_dim, g_step_size, g_stable, g_offset, g_base, hx, hz, Est.ord]
  obtain ⟨p, e, e', hr, ho⟩ := im_cmi_eval W data a kw dz ha hd (by simp [requiredKw]) h4
  rw [e, e', hv p hr ho]
  exact ⟨rfl, rfl⟩

theorem e2e_cmi_kernel {W : World} {data : List PyData} {a : PyName} {kw : Kw} {dz : PyData} (ha : Names W.lower .cmi a .kernel) (hd : 2 ≤ data.length) 
    (h4 : Only ["bandwidth", "kernel", "workers", "normalize", "offset", "base", "seed"] kw)
    {h : PyArg} {kn : Kernel} {w : Int} {nm : Bool} {o : Option Int} {b : Base} 
    (h_bandwidth : (kwOr kw "bandwidth" (.none)).toArg = some h)
    (h_kernel : PyVal.toKernel W.eig (kwOr kw "kernel" (.none)) = some kn)
    (h_workers : (kwOr kw "workers" (.int 1)).toInt = some w)
    (h_normalize : (kwOr kw "normalize" (.bool false)).toBool = some nm)
    (h_offset : (kwOr kw "offset" (.int 0)).toOptInt = some o)
    (h_base : (kwOr kw "base" (W.b0)).toBase = some b)
    {xs : List (KVar)} (hx : data.mapM PyData.toKVar = some xs) {z : KVar} (hz : PyData.toKVar dz = some z) :
    imCMI W data a (.val dz) kw = kernelCMI xs (some z) o nm { bandwidth := h, kernel := kn, workers := resolveWorkers W.cpu w } b ∧
      imMI W data a (.val dz) kw = kernelCMI xs (some z) o nm { bandwidth := h, kernel := kn, workers := resolveWorkers W.cpu w } b := by
  have hv : ∀ p : Kw, (∀ r ∈ requiredKw .cmi .kernel, p r = kw r) →
      (∀ o ∈ optionalKw W.b0 ⟨.cmi, .kernel⟩, p o.1 = some (kwOr kw o.1 o.2)) →
      Est.result W ⟨⟨.cmi, .kernel⟩, data, (some dz), p⟩ = kernelCMI xs (some z) o nm { bandwidth := h, kernel := kn, workers := resolveWorkers W.cpu w } b := by
    intro p hr ho
    have g_bandwidth : Est.get ⟨⟨.cmi, .kernel⟩, data, (some dz), p⟩ "bandwidth" PyVal.toArg = some h := by
      show (p "bandwidth").bind _ = _
      rw [ho ("bandwidth", .none) (by simp [optionalKw, ownKw, normalizeKw, commonKw, defaultNoise])]; exact h_bandwidth
    have g_kernel : Est.get ⟨⟨.cmi, .kernel⟩, data, (some dz), p⟩ "kernel" (PyVal.toKernel W.eig) = some kn := by
      show (p "kernel").bind _ = _
      rw [ho ("kernel", .none) (by simp [optionalKw, ownKw, normalizeKw, commonKw, defaultNoise])]; exact h_kernel
    have g_workers : Est.get ⟨⟨.cmi, .kernel⟩, data, (some dz), p⟩ "workers" PyVal.toInt = some w := by
      show (p "workers").bind _ = _
      rw [ho ("workers", .int 1) (by simp [optionalKw, ownKw, normalizeKw, commonKw, defaultNoise])]; exact h_workers
    have g_normalize : Est.get ⟨⟨.cmi, .kernel⟩, data, (some dz), p⟩ "normalize" PyVal.toBool = some nm := by
      show (p "normalize").bind _ = _
      rw [ho ("normalize", .bool false) (by simp [optionalKw, ownKw, normalizeKw, commonKw, defaultNoise])]; exact h_normalize
    have g_offset : Est.get ⟨⟨.cmi, .kernel⟩, data, (some dz), p⟩ "offset" PyVal.toOptInt = some o := by
      show (p "offset").bind _ = _
      rw [ho ("offset", .int 0) (by simp [optionalKw, ownKw, normalizeKw, commonKw, defaultNoise])]; exact h_offset
    have g_base : Est.get ⟨⟨.cmi, .kernel⟩, data, (some dz), p⟩ "base" PyVal.toBase = some b := by
      show (p "base").bind _ = _
      rw [ho ("base", W.b0) (by simp [optionalKw, ownKw, normalizeKw, commonKw, defaultNoise])]; exact h_base
    simp only [Est.result, Est.cmi, bind, Option.bind, Option.getD_some, g_bandwidth, g_kernel, g_workers, g_normalize, g_offset, g_base, hx, hz, Est.kde]
  obtain ⟨p, e, e', hr, ho⟩ := im_cmi_eval W data a kw dz ha hd (by simp [requiredKw]) h4
  rw [e, e', hv p hr ho]
  exact ⟨rfl, rfl⟩

theorem e2e_cmi_metric {W : World} {data : List PyData} {a : PyName} {kw : Kw} {dz : PyData} (ha : Names W.lower .cmi a .metric) (hd : 2 ≤ data.length) 
    (h4 : Only ["k", "ksg_id", "noise_level", "minkowski_p", "normalize", "offset", "base", "seed"] kw)
    {k : Nat} {i : Int} {v : ℝ} {mp : PNorm} {nm : Bool} {o : Option Int} {b : Base} 
    (h_k : (kwOr kw "k" (.int 4)).toNat = some k)
    (h_ksg_id : (kwOr kw "ksg_id" (.int 1)).toInt = some i)
    (h_noise_level : (kwOr kw "noise_level" (.num (1 / 10 ^ 10))).toNoise = some v)
    (h_minkowski_p : (kwOr kw "minkowski_p" (.inf)).toPNorm = some mp)
    (h_normalize : (kwOr kw "normalize" (.bool false)).toBool = some nm)
    (h_offset : (kwOr kw "offset" (.int 0)).toOptInt = some o)
    (h_base : (kwOr kw "base" (W.b0)).toBase = some b)
    {xs : List (KVar)} (hx : data.mapM PyData.toKVar = some xs) {z : KVar} (hz : PyData.toKVar dz = some z) :
    imCMI W data a (.val dz) kw = ksgCMI xs (some z) o nm { k := k, ksgId := i, p := mp } (W.noise2 v) (W.noiseSum v xs.length ((xs.map KVar.len).headD 0)) b ∧
      imMI W data a (.val dz) kw = ksgCMI xs (some z) o nm { k := k, ksgId := i, p := mp } (W.noise2 v) (W.noiseSum v xs.length ((xs.map KVar.len).headD 0)) b := by
  have hv : ∀ p : Kw, (∀ r ∈ requiredKw .cmi .metric, p r = kw r) →
      (∀ o ∈ optionalKw W.b0 ⟨.cmi, .metric⟩, p o.1 = some (kwOr kw o.1 o.2)) →
      Est.result W ⟨⟨.cmi, .metric⟩, data, (some dz), p⟩ = ksgCMI xs (some z) o nm { k := k, ksgId := i, p := mp } (W.noise2 v) (W.noiseSum v xs.length ((xs.map KVar.len).headD 0)) b := by
    intro p hr ho
    have g_k : Est.get ⟨⟨.cmi, .metric⟩, data, (some dz), p⟩ "k" PyVal.toNat = some k := by
      show (p "k").bind _ = _
      rw [ho ("k", .int 4) (by simp [optionalKw, ownKw, normalizeKw, commonKw, defaultNoise])]; exact h_k
    have g_ksg_id : Est.get ⟨⟨.cmi, .metric⟩, data, (some dz), p⟩ "ksg_id" PyVal.toInt = some i := by
      show (p "ksg_id").bind _ = _
      rw [ho ("ksg_id", .int 1) (by simp [optionalKw, ownKw, normalizeKw, commonKw, defaultNoise])]; exact h_ksg_id
    have g_noise_level : Est.get ⟨⟨.cmi, .metric⟩, data, (some dz), p⟩ "noise_level" PyVal.toNoise = some v := by
      show (p "noise_level").bind _ = _
      rw [ho ("noise_level", .num (1 / 10 ^ 10)) (by simp [optionalKw, ownKw, normalizeKw, commonKw, defaultNoise])]; exact h_noise_level
    have g_minkowski_p : Est.get ⟨⟨.cmi, .metric⟩, data, (some dz), p⟩ "minkowski_p" PyVal.toPNorm = some mp := by
      show (p "minkowski_p").bind _ = _
      rw [ho ("minkowski_p", .inf) (by simp [optionalKw, ownKw, normalizeKw, commonKw, defaultNoise])]; exact h_minkowski_p
    have g_normalize : Est.get ⟨⟨.cmi, .metric⟩, data, (some dz), p⟩ "normalize" PyVal.toBool = some nm := by
      show (p "normalize").bind _ = _
      rw [ho ("normalize", .bool false) (by simp [optionalKw, ownKw, normalizeKw, commonKw, defaultNoise])]; exact h_normalize
    have g_offset : Est.get ⟨⟨.cmi, .metric⟩, data, (some dz), p⟩ "offset" PyVal.toOptInt = some o := by
      show (p "offset").bind _ = _
      rw [ho ("offset", .int 0) (by simp [optionalKw, ownKw, normalizeKw, commonKw, defaultNoise])]; exact h_offset
    have g_base : Est.get ⟨⟨.cmi, .metric⟩, data, (some dz), p⟩ "base" PyVal.toBase = some b := by
      show (p "base").bind _ = _
      rw [ho ("base", W.b0) (by simp [optionalKw, ownKw, normalizeKw, commonKw, defaultNoise])]; exact h_base
    simp only [Est.result, Est.cmi, bind, Option.bind, Option.getD_some, g_k, g_ksg_id, g_noise_level, g_minkowski_p, g_normalize, g_offset, g_base, hx, hz, Est.ksg]
  obtain ⟨p, e, e', hr, ho⟩ := im_cmi_eval W data a kw dz ha hd (by simp [requiredKw]) h4
  rw [e, e', hv p hr ho]
  exact ⟨rfl, rfl⟩

theorem e2e_cmi_renyi {W : World} {data : List PyData} {a : PyName} {kw : Kw} {dz : PyData} (ha : Names W.lower .cmi a .renyi) (hd : 2 ≤ data.length) 
    (h4 : Only ["k", "alpha", "noise_level", "normalize", "offset", "base", "seed", "step_size"] kw)
    {k : PyArg} {q : PyArg} {v : ℝ} {nm : Bool} {o : Option Int} {b : Base} 
    (h_k : (kwOr kw "k" (.int 4)).toArg = some k)
    (h_alpha : (kwOr kw "alpha" (.none)).toArg = some q)
    (h_noise_level : (kwOr kw "noise_level" (.num (1 / 10 ^ 8))).toNoise = some v)
    (h_normalize : (kwOr kw "normalize" (.bool false)).toBool = some nm)
    (h_offset : (kwOr kw "offset" (.int 0)).toOptInt = some o)
    (h_base : (kwOr kw "base" (W.b0)).toBase = some b)
    {xs : List (KVar)} (hx : data.mapM PyData.toKVar = some xs) {z : KVar} (hz : PyData.toKVar dz = some z) :
    imCMI W data a (.val dz) kw = expCMI renyiVal xs (some z) o nm k q (W.noise2 v) (W.noise2 v xs.length) b ∧
      imMI W data a (.val dz) kw = expCMI renyiVal xs (some z) o nm k q (W.noise2 v) (W.noise2 v xs.length) b := by
  have hv : ∀ p : Kw, (∀ r ∈ requiredKw .cmi .renyi, p r = kw r) →
      (∀ o ∈ optionalKw W.b0 ⟨.cmi, .renyi⟩, p o.1 = some (kwOr kw o.1 o.2)) →
      Est.result W ⟨⟨.cmi, .renyi⟩, data, (some dz), p⟩ = expCMI renyiVal xs (some z) o nm k q (W.noise2 v) (W.noise2 v xs.length) b := by
    intro p hr ho
    have g_k : Est.get ⟨⟨.cmi, .renyi⟩, data, (some dz), p⟩ "k" PyVal.toArg = some k := by
      show (p "k").bind _ = _
      rw [ho ("k", .int 4) (by simp [optionalKw, ownKw, normalizeKw, commonKw, defaultNoise])]; exact h_k
    have g_alpha : Est.get ⟨⟨.cmi, .renyi⟩, data, (some dz), p⟩ "alpha" PyVal.toArg = some q := by
      show (p "alpha").bind _ = _
      rw [ho ("alpha", .none) (by simp [optionalKw, ownKw, normalizeKw, commonKw, defaultNoise])]; exact h_alpha
    have g_noise_level : Est.get ⟨⟨.cmi, .renyi⟩, data, (some dz), p⟩ "noise_level" PyVal.toNoise = some v := by
      show (p "noise_level").bind _ = _
      rw [ho ("noise_level", .num (1 / 10 ^ 8)) (by simp [optionalKw, ownKw, normalizeKw, commonKw, defaultNoise])]; exact h_noise_level
    have g_normalize : Est.get ⟨⟨.cmi, .renyi⟩, data, (some dz), p⟩ "normalize" PyVal.toBool = some nm := by
      show (p "normalize").bind _ = _
      rw [ho ("normalize", .bool false) (by simp [optionalKw, ownKw, normalizeKw, commonKw, defaultNoise])]; exact h_normalize
    have g_offset : Est.get ⟨⟨.cmi, .renyi⟩, data, (some dz), p⟩ "offset" PyVal.toOptInt = some o := by
      show (p "offset").bind _ = _
      rw [ho ("offset", .int 0) (by simp [optionalKw, ownKw, normalizeKw, commonKw, defaultNoise])]; exact h_offset
    have g_base : Est.get ⟨⟨.cmi, .renyi⟩, data, (some dz), p⟩ "base" PyVal.toBase = some b := by
      show (p "base").bind _ = _
      rw [ho ("base", W.b0) (by simp [optionalKw, ownKw, normalizeKw, commonKw, defaultNoise])]; exact h_base
    simp only [Est.result, Est.cmi, bind, Option.bind, Option.getD_some, g_k, g_alpha, g_noise_level, g_normalize, g_offset, g_base, hx, hz, expFam]
  obtain ⟨p, e, e', hr, ho⟩ := im_cmi_eval W data a kw dz ha hd (by simp [requiredKw]) h4
  rw [e, e', hv p hr ho]
  exact ⟨rfl, rfl⟩

theorem e2e_cmi_tsallis {W : World} {data : List PyData} {a : PyName} {kw : Kw} {dz : PyData} (ha : Names W.lower .cmi a .tsallis) (hd : 2 ≤ data.length) 
    (h4 : Only ["k", "q", "noise_level", "normalize", "offset", "base", "seed", "step_size"] kw)
    {k : PyArg} {q : PyArg} {v : ℝ} {nm : Bool} {o : Option Int} {b : Base} 
    (h_k : (kwOr kw "k" (.int 4)).toArg = some k)
    (h_q : (kwOr kw "q" (.none)).toArg = some q)
    (h_noise_level : (kwOr kw "noise_level" (.num (1 / 10 ^ 8))).toNoise = some v)
    (h_normalize : (kwOr kw "normalize" (.bool false)).toBool = some nm)
    (h_offset : (kwOr kw "offset" (.int 0)).toOptInt = some o)
    (h_base : (kwOr kw "base" (W.b0)).toBase = some b)
    {xs : List (KVar)} (hx : data.mapM PyData.toKVar = some xs) {z : KVar} (hz : PyData.toKVar dz = some z) :
    imCMI W data a (.val dz) kw = expCMI tsallisVal xs (some z) o nm k q (W.noise2 v) (W.noise2 v xs.length) b ∧
      imMI W data a (.val dz) kw = expCMI tsallisVal xs (some z) o nm k q (W.noise2 v) (W.noise2 v xs.length) b := by
  have hv : ∀ p : Kw, (∀ r ∈ requiredKw .cmi .tsallis, p r = kw r) →
      (∀ o ∈ optionalKw W.b0 ⟨.cmi, .tsallis⟩, p o.1 = some (kwOr kw o.1 o.2)) →
      Est.result W ⟨⟨.cmi, .tsallis⟩, data, (some dz), p⟩ = expCMI tsallisVal xs (some z) o nm k q (W.noise2 v) (W.noise2 v xs.length) b := by
    intro p hr ho
    have g_k : Est.get ⟨⟨.cmi, .tsallis⟩, data, (some dz), p⟩ "k" PyVal.toArg = some k := by
      show (p "k").bind _ = _
      rw [ho ("k", .int 4) (by simp [optionalKw, ownKw, normalizeKw, commonKw, defaultNoise])]; exact h_k
    have g_q : Est.get ⟨⟨.cmi, .tsallis⟩, data, (some dz), p⟩ "q" PyVal.toArg = some q := by
      show (p "q").bind _ = _
      rw [ho ("q", .none) (by simp [optionalKw, ownKw, normalizeKw, commonKw, defaultNoise])]; exact h_q
    have g_noise_level : Est.get ⟨⟨.cmi, .tsallis⟩, data, (some dz), p⟩ "noise_level" PyVal.toNoise = some v := by
      show (p "noise_level").bind _ = _
      rw [ho ("noise_level", .num (1 / 10 ^ 8)) (by simp [optionalKw, ownKw, normalizeKw, commonKw, defaultNoise])]; exact h_noise_level
    have g_normalize : Est.get ⟨⟨.cmi, .tsallis⟩, data, (some dz), p⟩ "normalize" PyVal.toBool = some nm := by
      show (p "normalize").bind _ = _
      rw [ho ("normalize", .bool false) (by simp [optionalKw, ownKw, normalizeKw, commonKw, defaultNoise])]; exact h_normalize
    have g_offset : Est.get ⟨⟨.cmi, .tsallis⟩, data, (some dz), p⟩ "offset" PyVal.toOptInt = some o := by
      show (p "offset").bind _ = _
      rw [ho ("offset", .int 0) (by simp [optionalKw, ownKw, normalizeKw, commonKw, defaultNoise])]; exact h_offset
    have g_base : Est.get ⟨⟨.cmi, .tsallis⟩, data, (some dz), p⟩ "base" PyVal.toBase = some b := by
      show (p "base").bind _ = _
      rw [ho ("base", W.b0) (by simp [optionalKw, ownKw, normalizeKw, commonKw, defaultNoise])]; exact h_base
    simp only [Est.result, Est.cmi, bind, Option.bind, Option.getD_some, g_k, g_q, g_noise_level, g_normalize, g_offset, g_base, hx, hz, expFam]
  obtain ⟨p, e, e', hr, ho⟩ := im_cmi_eval W data a kw dz ha hd (by simp [requiredKw]) h4
  rw [e, e', hv p hr ho]
  exact ⟨rfl, rfl⟩

end Verif
