import Verif.Lemmas.EndToEnd

/-!
# Lemmas: what each public call evaluates, estimator by estimator (MI)

Generated by `tools/gen_e2e.py`.  Each lemma: with only accepted keyword arguments, the value of the public function is
the model function of the estimator, at the given keyword arguments or the documented defaults.
-/

set_option linter.unusedSimpArgs false
set_option linter.unusedVariables false

namespace Verif

theorem e2e_mi_discrete {W : World} {data : List PyData} {a : PyName} {kw : Kw} {cond : CondKw PyData} (hc : cond.isVal = false) (ha : Names W.lower .mi a .discrete) (hd : 2 ≤ data.length) 
    (h4 : Only ["offset", "base", "seed"] kw)
    {o : Option Int} {b : Base} 
    (h_offset : (kwOr kw "offset" (.int 0)).toOptInt = some o)
    (h_base : (kwOr kw "base" (W.b0)).toBase = some b)
    {xs : List (List Int)} (hx : data.mapM PyData.toInts = some xs) :
    imMI W data a cond kw = discreteMI (.all1D xs) o b false := by
  have hv : ∀ p : Kw, (∀ r ∈ requiredKw .mi .discrete, p r = kw r) →
      (∀ o ∈ optionalKw W.b0 ⟨.mi, .discrete⟩, p o.1 = some (kwOr kw o.1 o.2)) →
      Est.result W ⟨⟨.mi, .discrete⟩, data, none, p⟩ = discreteMI (.all1D xs) o b false := by
    intro p hr ho
    have g_offset : Est.get ⟨⟨.mi, .discrete⟩, data, none, p⟩ "offset" PyVal.toOptInt = some o := by
      show (p "offset").bind _ = _
      rw [ho ("offset", .int 0) (by simp [optionalKw, ownKw, normalizeKw, commonKw, defaultNoise])]; exact h_offset
    have g_base : Est.get ⟨⟨.mi, .discrete⟩, data, none, p⟩ "base" PyVal.toBase = some b := by
      show (p "base").bind _ = _
      rw [ho ("base", W.b0) (by simp [optionalKw, ownKw, normalizeKw, commonKw, defaultNoise])]; exact h_base
    simp only [Est.result, Est.mi, bind, Option.bind, Option.getD_some, g_offset, g_base, hx]
  obtain ⟨p, e, hr, ho⟩ := im_mi_eval W data a cond kw ha hc hd (by simp [requiredKw]) h4
  rw [e, hv p hr ho]

theorem e2e_mi_millerMadow {W : World} {data : List PyData} {a : PyName} {kw : Kw} {cond : CondKw PyData} (hc : cond.isVal = false) (ha : Names W.lower .mi a .millerMadow) (hd : 2 ≤ data.length) 
    (h4 : Only ["offset", "base", "seed"] kw)
    {o : Option Int} {b : Base} 
    (h_offset : (kwOr kw "offset" (.int 0)).toOptInt = some o)
    (h_base : (kwOr kw "base" (W.b0)).toBase = some b)
    {xs : List (List Int)} (hx : data.mapM PyData.toInts = some xs) :
    imMI W data a cond kw = discreteMI (.all1D xs) o b true := by
  have hv : ∀ p : Kw, (∀ r ∈ requiredKw .mi .millerMadow, p r = kw r) →
      (∀ o ∈ optionalKw W.b0 ⟨.mi, .millerMadow⟩, p o.1 = some (kwOr kw o.1 o.2)) →
      Est.result W ⟨⟨.mi, .millerMadow⟩, data, none, p⟩ = discreteMI (.all1D xs) o b true := by
    intro p hr ho
    have g_offset : Est.get ⟨⟨.mi, .millerMadow⟩, data, none, p⟩ "offset" PyVal.toOptInt = some o := by
      show (p "offset").bind _ = _
      rw [ho ("offset", .int 0) (by simp [optionalKw, ownKw, normalizeKw, commonKw, defaultNoise])]; exact h_offset
    have g_base : Est.get ⟨⟨.mi, .millerMadow⟩, data, none, p⟩ "base" PyVal.toBase = some b := by
      show (p "base").bind _ = _
      rw [ho ("base", W.b0) (by simp [optionalKw, ownKw, normalizeKw, commonKw, defaultNoise])]; exact h_base
    simp only [Est.result, Est.mi, bind, Option.bind, Option.getD_some, g_offset, g_base, hx]
  obtain ⟨p, e, hr, ho⟩ := im_mi_eval W data a cond kw ha hc hd (by simp [requiredKw]) h4
  rw [e, hv p hr ho]

theorem e2e_mi_grassberger {W : World} {data : List PyData} {a : PyName} {kw : Kw} {cond : CondKw PyData} (hc : cond.isVal = false) (ha : Names W.lower .mi a .grassberger) (hd : 2 ≤ data.length) 
    (h4 : Only ["normalize", "offset", "base", "seed"] kw)
    {o : Option Int} {b : Base} 
    (h_normalize : (kwOr kw "normalize" (.bool false)).toBool = some false)
    (h_offset : (kwOr kw "offset" (.int 0)).toOptInt = some o)
    (h_base : (kwOr kw "base" (W.b0)).toBase = some b)
    {xs : List (List Int)} (hx : data.mapM PyData.toInts = some xs) :
    imMI W data a cond kw = biasMI .grassberger xs o b := by
  have hv : ∀ p : Kw, (∀ r ∈ requiredKw .mi .grassberger, p r = kw r) →
      (∀ o ∈ optionalKw W.b0 ⟨.mi, .grassberger⟩, p o.1 = some (kwOr kw o.1 o.2)) →
      Est.result W ⟨⟨.mi, .grassberger⟩, data, none, p⟩ = biasMI .grassberger xs o b := by
    intro p hr ho
    have g_normalize : Est.get ⟨⟨.mi, .grassberger⟩, data, none, p⟩ "normalize" PyVal.toBool = some false := by
      show (p "normalize").bind _ = _
      rw [ho ("normalize", .bool false) (by simp [optionalKw, ownKw, normalizeKw, commonKw, defaultNoise])]; exact h_normalize
    have g_offset : Est.get ⟨⟨.mi, .grassberger⟩, data, none, p⟩ "offset" PyVal.toOptInt = some o := by
      show (p "offset").bind _ = _
      rw [ho ("offset", .int 0) (by simp [optionalKw, ownKw, normalizeKw, commonKw, defaultNoise])]; exact h_offset
    have g_base : Est.get ⟨⟨.mi, .grassberger⟩, data, none, p⟩ "base" PyVal.toBase = some b := by
      show (p "base").bind _ = _
      rw [ho ("base", W.b0) (by simp [optionalKw, ownKw, normalizeKw, commonKw, defaultNoise])]; exact h_base
    simp only [Est.result, Est.mi, bind, Option.bind, Option.getD_some, g_normalize, g_offset, g_base, hx, Est.bclass, Bool.false_eq_true, if_false]
  obtain ⟨p, e, hr, ho⟩ := im_mi_eval W data a cond kw ha hc hd (by simp [requiredKw]) h4
  rw [e, hv p hr ho]

theorem e2e_mi_chaoShen {W : World} {data : List PyData} {a : PyName} {kw : Kw} {cond : CondKw PyData} (hc : cond.isVal = false) (ha : Names W.lower .mi a .chaoShen) (hd : 2 ≤ data.length) 
    (h4 : Only ["normalize", "offset", "base", "seed"] kw)
    {o : Option Int} {b : Base} 
    (h_normalize : (kwOr kw "normalize" (.bool false)).toBool = some false)
    (h_offset : (kwOr kw "offset" (.int 0)).toOptInt = some o)
    (h_base : (kwOr kw "base" (W.b0)).toBase = some b)
    {xs : List (List Int)} (hx : data.mapM PyData.toInts = some xs) :
    imMI W data a cond kw = biasMI .chaoShen xs o b := by
  have hv : ∀ p : Kw, (∀ r ∈ requiredKw .mi .chaoShen, p r = kw r) →
      (∀ o ∈ optionalKw W.b0 ⟨.mi, .chaoShen⟩, p o.1 = some (kwOr kw o.1 o.2)) →
      Est.result W ⟨⟨.mi, .chaoShen⟩, data, none, p⟩ = biasMI .chaoShen xs o b := by
    intro p hr ho
    have g_normalize : Est.get ⟨⟨.mi, .chaoShen⟩, data, none, p⟩ "normalize" PyVal.toBool = some false := by
      show (p "normalize").bind _ = _
      rw [ho ("normalize", .bool false) (by simp [optionalKw, ownKw, normalizeKw, commonKw, defaultNoise])]; exact h_normalize
    have g_offset : Est.get ⟨⟨.mi, .chaoShen⟩, data, none, p⟩ "offset" PyVal.toOptInt = some o := by
      show (p "offset").bind _ = _
      rw [ho ("offset", .int 0) (by simp [optionalKw, ownKw, normalizeKw, commonKw, defaultNoise])]; exact h_offset
    have g_base : Est.get ⟨⟨.mi, .chaoShen⟩, data, none, p⟩ "base" PyVal.toBase = some b := by
      show (p "base").bind _ = _
      rw [ho ("base", W.b0) (by simp [optionalKw, ownKw, normalizeKw, commonKw, defaultNoise])]; exact h_base
    simp only [Est.result, Est.mi, bind, Option.bind, Option.getD_some, g_normalize, g_offset, g_base, hx, Est.bclass, Bool.false_eq_true, if_false]
  obtain ⟨p, e, hr, ho⟩ := im_mi_eval W data a cond kw ha hc hd (by simp [requiredKw]) h4
  rw [e, hv p hr ho]

theorem e2e_mi_chaoWangJost {W : World} {data : List PyData} {a : PyName} {kw : Kw} {cond : CondKw PyData} (hc : cond.isVal = false) (ha : Names W.lower .mi a .chaoWangJost) (hd : 2 ≤ data.length) 
    (h4 : Only ["normalize", "offset", "base", "seed"] kw)
    {o : Option Int} {b : Base} 
    (h_normalize : (kwOr kw "normalize" (.bool false)).toBool = some false)
    (h_offset : (kwOr kw "offset" (.int 0)).toOptInt = some o)
    (h_base : (kwOr kw "base" (W.b0)).toBase = some b)
    {xs : List (List Int)} (hx : data.mapM PyData.toInts = some xs) :
    imMI W data a cond kw = biasMI .chaoWangJost xs o b := by
  have hv : ∀ p : Kw, (∀ r ∈ requiredKw .mi .chaoWangJost, p r = kw r) →
      (∀ o ∈ optionalKw W.b0 ⟨.mi, .chaoWangJost⟩, p o.1 = some (kwOr kw o.1 o.2)) →
      Est.result W ⟨⟨.mi, .chaoWangJost⟩, data, none, p⟩ = biasMI .chaoWangJost xs o b := by
    intro p hr ho
    have g_normalize : Est.get ⟨⟨.mi, .chaoWangJost⟩, data, none, p⟩ "normalize" PyVal.toBool = some false := by
      show (p "normalize").bind _ = _
      rw [ho ("normalize", .bool false) (by simp [optionalKw, ownKw, normalizeKw, commonKw, defaultNoise])]; exact h_normalize
    have g_offset : Est.get ⟨⟨.mi, .chaoWangJost⟩, data, none, p⟩ "offset" PyVal.toOptInt = some o := by
      show (p "offset").bind _ = _
      rw [ho ("offset", .int 0) (by simp [optionalKw, ownKw, normalizeKw, commonKw, defaultNoise])]; exact h_offset
    have g_base : Est.get ⟨⟨.mi, .chaoWangJost⟩, data, none, p⟩ "base" PyVal.toBase = some b := by
      show (p "base").bind _ = _
      rw [ho ("base", W.b0) (by simp [optionalKw, ownKw, normalizeKw, commonKw, defaultNoise])]; exact h_base
    simp only [Est.result, Est.mi, bind, Option.bind, Option.getD_some, g_normalize, g_offset, g_base, hx, Est.bclass, Bool.false_eq_true, if_false]
  obtain ⟨p, e, hr, ho⟩ := im_mi_eval W data a cond kw ha hc hd (by simp [requiredKw]) h4
  rw [e, hv p hr ho]

theorem e2e_mi_shrink {W : World} {data : List PyData} {a : PyName} {kw : Kw} {cond : CondKw PyData} (hc : cond.isVal = false) (ha : Names W.lower .mi a .shrink) (hd : 2 ≤ data.length) 
    (h4 : Only ["normalize", "offset", "base", "seed"] kw)
    {o : Option Int} {b : Base} 
    (h_normalize : (kwOr kw "normalize" (.bool false)).toBool = some false)
    (h_offset : (kwOr kw "offset" (.int 0)).toOptInt = some o)
    (h_base : (kwOr kw "base" (W.b0)).toBase = some b)
    {xs : List (List Int)} (hx : data.mapM PyData.toInts = some xs) :
    imMI W data a cond kw = biasMI .shrink xs o b := by
  have hv : ∀ p : Kw, (∀ r ∈ requiredKw .mi .shrink, p r = kw r) →
      (∀ o ∈ optionalKw W.b0 ⟨.mi, .shrink⟩, p o.1 = some (kwOr kw o.1 o.2)) →
      Est.result W ⟨⟨.mi, .shrink⟩, data, none, p⟩ = biasMI .shrink xs o b := by
    intro p hr ho
    have g_normalize : Est.get ⟨⟨.mi, .shrink⟩, data, none, p⟩ "normalize" PyVal.toBool = some false := by
      show (p "normalize").bind _ = _
      rw [ho ("normalize", .bool false) (by simp [optionalKw, ownKw, normalizeKw, commonKw, defaultNoise])]; exact h_normalize
    have g_offset : Est.get ⟨⟨.mi, .shrink⟩, data, none, p⟩ "offset" PyVal.toOptInt = some o := by
      show (p "offset").bind _ = _
      rw [ho ("offset", .int 0) (by simp [optionalKw, ownKw, normalizeKw, commonKw, defaultNoise])]; exact h_offset
    have g_base : Est.get ⟨⟨.mi, .shrink⟩, data, none, p⟩ "base" PyVal.toBase = some b := by
      show (p "base").bind _ = _
      rw [ho ("base", W.b0) (by simp [optionalKw, ownKw, normalizeKw, commonKw, defaultNoise])]; exact h_base
    simp only [Est.result, Est.mi, bind, Option.bind, Option.getD_some, g_normalize, g_offset, g_base, hx, Est.bclass, Bool.false_eq_true, if_false]
  obtain ⟨p, e, hr, ho⟩ := im_mi_eval W data a cond kw ha hc hd (by simp [requiredKw]) h4
  rw [e, hv p hr ho]

theorem e2e_mi_zhang {W : World} {data : List PyData} {a : PyName} {kw : Kw} {cond : CondKw PyData} (hc : cond.isVal = false) (ha : Names W.lower .mi a .zhang) (hd : 2 ≤ data.length) 
    (h4 : Only ["normalize", "offset", "base", "seed"] kw)
    {o : Option Int} {b : Base} 
    (h_normalize : (kwOr kw "normalize" (.bool false)).toBool = some false)
    (h_offset : (kwOr kw "offset" (.int 0)).toOptInt = some o)
    (h_base : (kwOr kw "base" (W.b0)).toBase = some b)
    {xs : List (List Int)} (hx : data.mapM PyData.toInts = some xs) :
    imMI W data a cond kw = biasMI .zhang xs o b := by
  have hv : ∀ p : Kw, (∀ r ∈ requiredKw .mi .zhang, p r = kw r) →
      (∀ o ∈ optionalKw W.b0 ⟨.mi, .zhang⟩, p o.1 = some (kwOr kw o.1 o.2)) →
      Est.result W ⟨⟨.mi, .zhang⟩, data, none, p⟩ = biasMI .zhang xs o b := by
    intro p hr ho
    have g_normalize : Est.get ⟨⟨.mi, .zhang⟩, data, none, p⟩ "normalize" PyVal.toBool = some false := by
      show (p "normalize").bind _ = _
      rw [ho ("normalize", .bool false) (by simp [optionalKw, ownKw, normalizeKw, commonKw, defaultNoise])]; exact h_normalize
    have g_offset : Est.get ⟨⟨.mi, .zhang⟩, data, none, p⟩ "offset" PyVal.toOptInt = some o := by
      show (p "offset").bind _ = _
      rw [ho ("offset", .int 0) (by simp [optionalKw, ownKw, normalizeKw, commonKw, defaultNoise])]; exact h_offset
    have g_base : Est.get ⟨⟨.mi, .zhang⟩, data, none, p⟩ "base" PyVal.toBase = some b := by
      show (p "base").bind _ = _
      rw [ho ("base", W.b0) (by simp [optionalKw, ownKw, normalizeKw, commonKw, defaultNoise])]; exact h_base
    simp only [Est.result, Est.mi, bind, Option.bind, Option.getD_some, g_normalize, g_offset, g_base, hx, Est.bclass, Bool.false_eq_true, if_false]
  obtain ⟨p, e, hr, ho⟩ := im_mi_eval W data a cond kw ha hc hd (by simp [requiredKw]) h4
  rw [e, hv p hr ho]

theorem e2e_mi_bonachela {W : World} {data : List PyData} {a : PyName} {kw : Kw} {cond : CondKw PyData} (hc : cond.isVal = false) (ha : Names W.lower .mi a .bonachela) (hd : 2 ≤ data.length) 
    (h4 : Only ["normalize", "offset", "base", "seed"] kw)
    {o : Option Int} {b : Base} 
    (h_normalize : (kwOr kw "normalize" (.bool false)).toBool = some false)
    (h_offset : (kwOr kw "offset" (.int 0)).toOptInt = some o)
    (h_base : (kwOr kw "base" (W.b0)).toBase = some b)
    {xs : List (List Int)} (hx : data.mapM PyData.toInts = some xs) :
    imMI W data a cond kw = biasMI .bonachela xs o b := by
  have hv : ∀ p : Kw, (∀ r ∈ requiredKw .mi .bonachela, p r = kw r) →
      (∀ o ∈ optionalKw W.b0 ⟨.mi, .bonachela⟩, p o.1 = some (kwOr kw o.1 o.2)) →
      Est.result W ⟨⟨.mi, .bonachela⟩, data, none, p⟩ = biasMI .bonachela xs o b := by
    intro p hr ho
    have g_normalize : Est.get ⟨⟨.mi, .bonachela⟩, data, none, p⟩ "normalize" PyVal.toBool = some false := by
      show (p "normalize").bind _ = _
      rw [ho ("normalize", .bool false) (by simp [optionalKw, ownKw, normalizeKw, commonKw, defaultNoise])]; exact h_normalize
    have g_offset : Est.get ⟨⟨.mi, .bonachela⟩, data, none, p⟩ "offset" PyVal.toOptInt = some o := by
      show (p "offset").bind _ = _
      rw [ho ("offset", .int 0) (by simp [optionalKw, ownKw, normalizeKw, commonKw, defaultNoise])]; exact h_offset
    have g_base : Est.get ⟨⟨.mi, .bonachela⟩, data, none, p⟩ "base" PyVal.toBase = some b := by
      show (p "base").bind _ = _
      rw [ho ("base", W.b0) (by simp [optionalKw, ownKw, normalizeKw, commonKw, defaultNoise])]; exact h_base
    simp only [Est.result, Est.mi, bind, Option.bind, Option.getD_some, g_normalize, g_offset, g_base, hx, Est.bclass, Bool.false_eq_true, if_false]
  obtain ⟨p, e, hr, ho⟩ := im_mi_eval W data a cond kw ha hc hd (by simp [requiredKw]) h4
  rw [e, hv p hr ho]

theorem e2e_mi_bayes {W : World} {data : List PyData} {a : PyName} {kw : Kw} {cond : CondKw PyData} (hc : cond.isVal = false) (ha : Names W.lower .mi a .bayes) (hd : 2 ≤ data.length) 
    (h4 : Only ["alpha", "K", "normalize", "offset", "base", "seed"] kw)
    {al : AlphaArg} {K : Option PyArg} {o : Option Int} {b : Base} 
    (h_alpha : (kw "alpha").bind PyVal.toAlpha = some al)
    (h_K : (kwOr kw "K" (.none)).toOptArg = some K)
    (h_normalize : (kwOr kw "normalize" (.bool false)).toBool = some false)
    (h_offset : (kwOr kw "offset" (.int 0)).toOptInt = some o)
    (h_base : (kwOr kw "base" (W.b0)).toBase = some b)
    {xs : List (List Int)} (hx : data.mapM PyData.toInts = some xs) :
    imMI W data a cond kw = biasMI (.bayes al K) xs o b := by
  have hv : ∀ p : Kw, (∀ r ∈ requiredKw .mi .bayes, p r = kw r) →
      (∀ o ∈ optionalKw W.b0 ⟨.mi, .bayes⟩, p o.1 = some (kwOr kw o.1 o.2)) →
      Est.result W ⟨⟨.mi, .bayes⟩, data, none, p⟩ = biasMI (.bayes al K) xs o b := by
    intro p hr ho
    have g_alpha : Est.get ⟨⟨.mi, .bayes⟩, data, none, p⟩ "alpha" PyVal.toAlpha = some al := by
      show (p "alpha").bind _ = _
      rw [hr "alpha" (by simp [requiredKw])]; exact h_alpha
    have g_K : Est.get ⟨⟨.mi, .bayes⟩, data, none, p⟩ "K" PyVal.toOptArg = some K := by
      show (p "K").bind _ = _
      rw [ho ("K", .none) (by simp [optionalKw, ownKw, normalizeKw, commonKw, defaultNoise])]; exact h_K
    have g_normalize : Est.get ⟨⟨.mi, .bayes⟩, data, none, p⟩ "normalize" PyVal.toBool = some false := by
      show (p "normalize").bind _ = _
      rw [ho ("normalize", .bool false) (by simp [optionalKw, ownKw, normalizeKw, commonKw, defaultNoise])]; exact h_normalize
    have g_offset : Est.get ⟨⟨.mi, .bayes⟩, data, none, p⟩ "offset" PyVal.toOptInt = some o := by
      show (p "offset").bind _ = _
      rw [ho ("offset", .int 0) (by simp [optionalKw, ownKw, normalizeKw, commonKw, defaultNoise])]; exact h_offset
    have g_base : Est.get ⟨⟨.mi, .bayes⟩, data, none, p⟩ "base" PyVal.toBase = some b := by
      show (p "base").bind _ = _
      rw [ho ("base", W.b0) (by simp [optionalKw, ownKw, normalizeKw, commonKw, defaultNoise])]; exact h_base
    simp only [Est.result, Est.mi, bind, Option.bind, Option.getD_some, g_alpha, g_K, g_normalize, g_offset, g_base, hx, Est.bclass, Bool.false_eq_true, if_false]
  obtain ⟨p, e, hr, ho⟩ := im_mi_eval W data a cond kw ha hc hd (by
    intro r hr
    simp only [requiredKw, List.mem_cons, List.not_mem_nil, or_false] at hr
    rcases hr with rfl
    · intro hn; rw [hn] at h_alpha; simp at h_alpha) h4
  rw [e, hv p hr ho]

theorem e2e_mi_ansb {W : World} {data : List PyData} {a : PyName} {kw : Kw} {cond : CondKw PyData} (hc : cond.isVal = false) (ha : Names W.lower .mi a .ansb) (hd : 2 ≤ data.length) 
    (h4 : Only ["undersampled", "normalize", "offset", "base", "seed"] kw)
    {us : ℝ} {o : Option Int} {b : Base} 
    (h_undersampled : (kwOr kw "undersampled" (.num (1 / 10))).toNum = some us)
    (h_normalize : (kwOr kw "normalize" (.bool false)).toBool = some false)
    (h_offset : (kwOr kw "offset" (.int 0)).toOptInt = some o)
    (h_base : (kwOr kw "base" (W.b0)).toBase = some b)
    {xs : List (List Int)} (hx : data.mapM PyData.toInts = some xs) :
    imMI W data a cond kw = biasMI (.ansb us) xs o b := by
  have hv : ∀ p : Kw, (∀ r ∈ requiredKw .mi .ansb, p r = kw r) →
      (∀ o ∈ optionalKw W.b0 ⟨.mi, .ansb⟩, p o.1 = some (kwOr kw o.1 o.2)) →
      Est.result W ⟨⟨.mi, .ansb⟩, data, none, p⟩ = biasMI (.ansb us) xs o b := by
    intro p hr ho
    have g_undersampled : Est.get ⟨⟨.mi, .ansb⟩, data, none, p⟩ "undersampled" PyVal.toNum = some us := by
      show (p "undersampled").bind _ = _
      rw [ho ("undersampled", .num (1 / 10)) (by simp [optionalKw, ownKw, normalizeKw, commonKw, defaultNoise])]; exact h_undersampled
    have g_normalize : Est.get ⟨⟨.mi, .ansb⟩, data, none, p⟩ "normalize" PyVal.toBool = some false := by
      show (p "normalize").bind _ = _
      rw [ho ("normalize", .bool false) (by simp [optionalKw, ownKw, normalizeKw, commonKw, defaultNoise])]; exact h_normalize
    have g_offset : Est.get ⟨⟨.mi, .ansb⟩, data, none, p⟩ "offset" PyVal.toOptInt = some o := by
      show (p "offset").bind _ = _
      rw [ho ("offset", .int 0) (by simp [optionalKw, ownKw, normalizeKw, commonKw, defaultNoise])]; exact h_offset
    have g_base : Est.get ⟨⟨.mi, .ansb⟩, data, none, p⟩ "base" PyVal.toBase = some b := by
      show (p "base").bind _ = _
      rw [ho ("base", W.b0) (by simp [optionalKw, ownKw, normalizeKw, commonKw, defaultNoise])]; exact h_base
    simp only [Est.result, Est.mi, bind, Option.bind, Option.getD_some, g_undersampled, g_normalize, g_offset, g_base, hx, Est.bclass, Bool.false_eq_true, if_false]
  obtain ⟨p, e, hr, ho⟩ := im_mi_eval W data a cond kw ha hc hd (by simp [requiredKw]) h4
  rw [e, hv p hr ho]

theorem e2e_mi_nsb {W : World} {data : List PyData} {a : PyName} {kw : Kw} {cond : CondKw PyData} (hc : cond.isVal = false) (ha : Names W.lower .mi a .nsb) (hd : 2 ≤ data.length) 
    (h4 : Only ["K", "normalize", "offset", "base", "seed"] kw)
    {K : Option PyArg} {o : Option Int} {b : Base} 
    (h_K : (kwOr kw "K" (.none)).toOptArg = some K)
    (h_normalize : (kwOr kw "normalize" (.bool false)).toBool = some false)
    (h_offset : (kwOr kw "offset" (.int 0)).toOptInt = some o)
    (h_base : (kwOr kw "base" (W.b0)).toBase = some b)
    {xs : List (List Int)} (hx : data.mapM PyData.toInts = some xs) :
    imMI W data a cond kw = nsbMI W.find K xs o b := by
  have hv : ∀ p : Kw, (∀ r ∈ requiredKw .mi .nsb, p r = kw r) →
      (∀ o ∈ optionalKw W.b0 ⟨.mi, .nsb⟩, p o.1 = some (kwOr kw o.1 o.2)) →
      Est.result W ⟨⟨.mi, .nsb⟩, data, none, p⟩ = nsbMI W.find K xs o b := by
    intro p hr ho
    have g_K : Est.get ⟨⟨.mi, .nsb⟩, data, none, p⟩ "K" PyVal.toOptArg = some K := by
      show (p "K").bind _ = _
      rw [ho ("K", .none) (by simp [optionalKw, ownKw, normalizeKw, commonKw, defaultNoise])]; exact h_K
    have g_normalize : Est.get ⟨⟨.mi, .nsb⟩, data, none, p⟩ "normalize" PyVal.toBool = some false := by
      show (p "normalize").bind _ = _
      rw [ho ("normalize", .bool false) (by simp [optionalKw, ownKw, normalizeKw, commonKw, defaultNoise])]; exact h_normalize
    have g_offset : Est.get ⟨⟨.mi, .nsb⟩, data, none, p⟩ "offset" PyVal.toOptInt = some o := by
      show (p "offset").bind _ = _
      rw [ho ("offset", .int 0) (by simp [optionalKw, ownKw, normalizeKw, commonKw, defaultNoise])]; exact h_offset
    have g_base : Est.get ⟨⟨.mi, .nsb⟩, data, none, p⟩ "base" PyVal.toBase = some b := by
      show (p "base").bind _ = _
      rw [ho ("base", W.b0) (by simp [optionalKw, ownKw, normalizeKw, commonKw, defaultNoise])]; exact h_base
    simp only [Est.result, Est.mi, bind, Option.bind, Option.getD_some, g_K, g_normalize, g_offset, g_base, hx, Bool.false_eq_true, if_false]
  obtain ⟨p, e, hr, ho⟩ := im_mi_eval W data a cond kw ha hc hd (by simp [requiredKw]) h4
  rw [e, hv p hr ho]

theorem e2e_mi_ordinal {W : World} {data : List PyData} {a : PyName} {kw : Kw} {cond : CondKw PyData} (hc : cond.isVal = false) (ha : Names W.lower .mi a .ordinal) (hd : 2 ≤ data.length) 
    (h4 : Only ["embedding_dim", "step_size", "stable", "offset", "base", "seed"] kw)
    {d : PyArg} {s : PyArg} {st : Bool} {o : Option Int} {b : Base} 
    (h_embedding_dim : (kwOr kw "embedding_dim" (.none)).toArg = some d)
    (h_step_size : (kwOr kw "step_size" (.int 1)).toArg = some s)
    (h_stable : (kwOr kw "stable" (.bool false)).toBool = some st)
    (h_offset : (kwOr kw "offset" (.int 0)).toOptInt = some o)
    (h_base : (kwOr kw "base" (W.b0)).toBase = some b)
    {xs : List (List ℝ)} (hx : data.mapM PyData.toSeries = some xs) :
    imMI W data a cond kw = ordMI W.quick xs { dim := d, step := s, stable := st } o b := by
  have hv : ∀ p : Kw, (∀ r ∈ requiredKw .mi .ordinal, p r = kw r) →
      (∀ o ∈ optionalKw W.b0 ⟨.mi, .ordinal⟩, p o.1 = some (kwOr kw o.1 o.2)) →
      Est.result W ⟨⟨.mi, .ordinal⟩, data, none, p⟩ = ordMI W.quick xs { dim := d, step := s, stable := st } o b := by
    intro p hr ho
    have g_embedding_dim : Est.get ⟨⟨.mi, .ordinal⟩, data, none, p⟩ "embedding_dim" PyVal.toArg = some d := by
      show (p "embedding_dim").bind _ = _
      rw [ho ("embedding_dim", .none) (by simp [optionalKw, ownKw, normalizeKw, commonKw, defaultNoise])]; exact h_embedding_dim
    have g_step_size : Est.get ⟨⟨.mi, .ordinal⟩, data, none, p⟩ "step_size" PyVal.toArg = some s := by
      show (p "step_size").bind _ = _
      rw [ho ("step_size", .int 1) (by simp [optionalKw, ownKw, normalizeKw, commonKw, defaultNoise])]; exact h_step_size
    have g_stable : Est.get ⟨⟨.mi, .ordinal⟩, data, none, p⟩ "stable" PyVal.toBool = some st := by
      show (p "stable").bind _ = _
      rw [ho ("stable", .bool false) (by simp [optionalKw, ownKw, normalizeKw, commonKw, defaultNoise])]; exact h_stable
    have g_offset : Est.get ⟨⟨.mi, .ordinal⟩, data, none, p⟩ "offset" PyVal.toOptInt = some o := by
      show (p "offset").bind _ = _
      rw [ho ("offset", .int 0) (by simp [optionalKw, ownKw, normalizeKw, commonKw, defaultNoise])]; exact h_offset
    have g_base : Est.get ⟨⟨.mi, .ordinal⟩, data, none, p⟩ "base" PyVal.toBase = some b := by
      show (p "base").bind _ = _
      rw [ho ("base", W.b0) (by simp [optionalKw, ownKw, normalizeKw, commonKw, defaultNoise])]; exact h_base
    simp only [Est.result, Est.mi, bind, Option.bind, Option.getD_some, g_embedding_dim, g_step_size, g_stable, g_offset, g_base, hx, Est.ord]
  obtain ⟨p, e, hr, ho⟩ := im_mi_eval W data a cond kw ha hc hd (by simp [requiredKw]) h4
  rw [e, hv p hr ho]

theorem e2e_mi_kernel {W : World} {data : List PyData} {a : PyName} {kw : Kw} {cond : CondKw PyData} (hc : cond.isVal = false) (ha : Names W.lower .mi a .kernel) (hd : 2 ≤ data.length) 
    (h4 : Only ["bandwidth", "kernel", "workers", "normalize", "offset", "base", "seed"] kw)
    {h : PyArg} {kn : Kernel} {w : Int} {nm : Bool} {o : Option Int} {b : Base} 
    (h_bandwidth : (kwOr kw "bandwidth" (.none)).toArg = some h)
    (h_kernel : PyVal.toKernel W.eig (kwOr kw "kernel" (.none)) = some kn)
    (h_workers : (kwOr kw "workers" (.int 1)).toInt = some w)
    (h_normalize : (kwOr kw "normalize" (.bool false)).toBool = some nm)
    (h_offset : (kwOr kw "offset" (.int 0)).toOptInt = some o)
    (h_base : (kwOr kw "base" (W.b0)).toBase = some b)
    {xs : List (KVar)} (hx : data.mapM PyData.toKVar = some xs) :
    imMI W data a cond kw = kernelMI xs o nm { bandwidth := h, kernel := kn, workers := resolveWorkers W.cpu w } b := by
  have hv : ∀ p : Kw, (∀ r ∈ requiredKw .mi .kernel, p r = kw r) →
      (∀ o ∈ optionalKw W.b0 ⟨.mi, .kernel⟩, p o.1 = some (kwOr kw o.1 o.2)) →
      Est.result W ⟨⟨.mi, .kernel⟩, data, none, p⟩ = kernelMI xs o nm { bandwidth := h, kernel := kn, workers := resolveWorkers W.cpu w } b := by
    intro p hr ho
    have g_bandwidth : Est.get ⟨⟨.mi, .kernel⟩, data, none, p⟩ "bandwidth" PyVal.toArg = some h := by
      show (p "bandwidth").bind _ = _
      rw [ho ("bandwidth", .none) (by simp [optionalKw, ownKw, normalizeKw, commonKw, defaultNoise])]; exact h_bandwidth
    have g_kernel : Est.get ⟨⟨.mi, .kernel⟩, data, none, p⟩ "kernel" (PyVal.toKernel W.eig) = some kn := by
      show (p "kernel").bind _ = _
      rw [ho ("kernel", .none) (by simp [optionalKw, ownKw, normalizeKw, commonKw, defaultNoise])]; exact h_kernel
    have g_workers : Est.get ⟨⟨.mi, .kernel⟩, data, none, p⟩ "workers" PyVal.toInt = some w := by
      show (p "workers").bind _ = _
      rw [ho ("workers", .int 1) (by simp [optionalKw, ownKw, normalizeKw, commonKw, defaultNoise])]; exact h_workers
    have g_normalize : Est.get ⟨⟨.mi, .kernel⟩, data, none, p⟩ "normalize" PyVal.toBool = some nm := by
      show (p "normalize").bind _ = _
      rw [ho ("normalize", .bool false) (by simp [optionalKw, ownKw, normalizeKw, commonKw, defaultNoise])]; exact h_normalize
    have g_offset : Est.get ⟨⟨.mi, .kernel⟩, data, none, p⟩ "offset" PyVal.toOptInt = some o := by
      show (p "offset").bind _ = _
      rw [ho ("offset", .int 0) (by simp [optionalKw, ownKw, normalizeKw, commonKw, defaultNoise])]; exact h_offset
    have g_base : Est.get ⟨⟨.mi, .kernel⟩, data, none, p⟩ "base" PyVal.toBase = some b := by
      show (p "base").bind _ = _
      rw [ho ("base", W.b0) (by simp [optionalKw, ownKw, normalizeKw, commonKw, defaultNoise])]; exact h_base
    simp only [Est.result, Est.mi, bind, Option.bind, Option.getD_some, g_bandwidth, g_kernel, g_workers, g_normalize, g_offset, g_base, hx, Est.kde]
  obtain ⟨p, e, hr, ho⟩ := im_mi_eval W data a cond kw ha hc hd (by simp [requiredKw]) h4
  rw [e, hv p hr ho]

theorem e2e_mi_metric {W : World} {data : List PyData} {a : PyName} {kw : Kw} {cond : CondKw PyData} (hc : cond.isVal = false) (ha : Names W.lower .mi a .metric) (hd : 2 ≤ data.length) 
    (h4 : Only ["k", "ksg_id", "noise_level", "minkowski_p", "normalize", "offset", "base", "seed"] kw)
    {k : Nat} {i : Int} {v : ℝ} {mp : PNorm} {nm : Bool} {o : Option Int} {b : Base} 
    (h_k : (kwOr kw "k" (.int 4)).toNat = some k)
    (h_ksg_id : (kwOr kw "ksg_id" (.int 1)).toInt = some i)
    (h_noise_level : (kwOr kw "noise_level" (.num (1 / 10 ^ 10))).toNoise = some v)
    (h_minkowski_p : (kwOr kw "minkowski_p" (.inf)).toPNorm = some mp)
    (h_normalize : (kwOr kw "normalize" (.bool false)).toBool = some nm)
    (h_offset : (kwOr kw "offset" (.int 0)).toOptInt = some o)
    (h_base : (kwOr kw "base" (W.b0)).toBase = some b)
    {xs : List (KVar)} (hx : data.mapM PyData.toKVar = some xs) :
    imMI W data a cond kw = ksgMI xs o nm { k := k, ksgId := i, p := mp } (W.noise2 v) b := by
  have hv : ∀ p : Kw, (∀ r ∈ requiredKw .mi .metric, p r = kw r) →
      (∀ o ∈ optionalKw W.b0 ⟨.mi, .metric⟩, p o.1 = some (kwOr kw o.1 o.2)) →
      Est.result W ⟨⟨.mi, .metric⟩, data, none, p⟩ = ksgMI xs o nm { k := k, ksgId := i, p := mp } (W.noise2 v) b := by
    intro p hr ho
    have g_k : Est.get ⟨⟨.mi, .metric⟩, data, none, p⟩ "k" PyVal.toNat = some k := by
      show (p "k").bind _ = _
      rw [ho ("k", .int 4) (by simp [optionalKw, ownKw, normalizeKw, commonKw, defaultNoise])]; exact h_k
    have g_ksg_id : Est.get ⟨⟨.mi, .metric⟩, data, none, p⟩ "ksg_id" PyVal.toInt = some i := by
      show (p "ksg_id").bind _ = _
      rw [ho ("ksg_id", .int 1) (by simp [optionalKw, ownKw, normalizeKw, commonKw, defaultNoise])]; exact h_ksg_id
    have g_noise_level : Est.get ⟨⟨.mi, .metric⟩, data, none, p⟩ "noise_level" PyVal.toNoise = some v := by
      show (p "noise_level").bind _ = _
      rw [ho ("noise_level", .num (1 / 10 ^ 10)) (by simp [optionalKw, ownKw, normalizeKw, commonKw, defaultNoise])]; exact h_noise_level
    have g_minkowski_p : Est.get ⟨⟨.mi, .metric⟩, data, none, p⟩ "minkowski_p" PyVal.toPNorm = some mp := by
      show (p "minkowski_p").bind _ = _
      rw [ho ("minkowski_p", .inf) (by simp [optionalKw, ownKw, normalizeKw, commonKw, defaultNoise])]; exact h_minkowski_p
    have g_normalize : Est.get ⟨⟨.mi, .metric⟩, data, none, p⟩ "normalize" PyVal.toBool = some nm := by
      show (p "normalize").bind _ = _
      rw [ho ("normalize", .bool false) (by simp [optionalKw, ownKw, normalizeKw, commonKw, defaultNoise])]; exact h_normalize
    have g_offset : Est.get ⟨⟨.mi, .metric⟩, data, none, p⟩ "offset" PyVal.toOptInt = some o := by
      show (p "offset").bind _ = _
      rw [ho ("offset", .int 0) (by simp [optionalKw, ownKw, normalizeKw, commonKw, defaultNoise])]; exact h_offset
    have g_base : Est.get ⟨⟨.mi, .metric⟩, data, none, p⟩ "base" PyVal.toBase = some b := by
      show (p "base").bind _ = _
      rw [ho ("base", W.b0) (by simp [optionalKw, ownKw, normalizeKw, commonKw, defaultNoise])]; exact h_base
    simp only [Est.result, Est.mi, bind, Option.bind, Option.getD_some, g_k, g_ksg_id, g_noise_level, g_minkowski_p, g_normalize, g_offset, g_base, hx, Est.ksg]
  obtain ⟨p, e, hr, ho⟩ := im_mi_eval W data a cond kw ha hc hd (by simp [requiredKw]) h4
  rw [e, hv p hr ho]

theorem e2e_mi_renyi {W : World} {data : List PyData} {a : PyName} {kw : Kw} {cond : CondKw PyData} (hc : cond.isVal = false) (ha : Names W.lower .mi a .renyi) (hd : 2 ≤ data.length) 
    (h4 : Only ["k", "alpha", "noise_level", "normalize", "offset", "base", "seed", "step_size"] kw)
    {k : PyArg} {q : PyArg} {v : ℝ} {nm : Bool} {o : Option Int} {b : Base} 
    (h_k : (kwOr kw "k" (.int 4)).toArg = some k)
    (h_alpha : (kwOr kw "alpha" (.none)).toArg = some q)
    (h_noise_level : (kwOr kw "noise_level" (.num (1 / 10 ^ 8))).toNoise = some v)
    (h_normalize : (kwOr kw "normalize" (.bool false)).toBool = some nm)
    (h_offset : (kwOr kw "offset" (.int 0)).toOptInt = some o)
    (h_base : (kwOr kw "base" (W.b0)).toBase = some b)
    {xs : List (KVar)} (hx : data.mapM PyData.toKVar = some xs) :
    imMI W data a cond kw = expMI renyiVal xs o nm k q (W.noise2 v) b := by
  have hv : ∀ p : Kw, (∀ r ∈ requiredKw .mi .renyi, p r = kw r) →
      (∀ o ∈ optionalKw W.b0 ⟨.mi, .renyi⟩, p o.1 = some (kwOr kw o.1 o.2)) →
      Est.result W ⟨⟨.mi, .renyi⟩, data, none, p⟩ = expMI renyiVal xs o nm k q (W.noise2 v) b := by
    intro p hr ho
    have g_k : Est.get ⟨⟨.mi, .renyi⟩, data, none, p⟩ "k" PyVal.toArg = some k := by
      show (p "k").bind _ = _
      rw [ho ("k", .int 4) (by simp [optionalKw, ownKw, normalizeKw, commonKw, defaultNoise])]; exact h_k
    have g_alpha : Est.get ⟨⟨.mi, .renyi⟩, data, none, p⟩ "alpha" PyVal.toArg = some q := by
      show (p "alpha").bind _ = _
      rw [ho ("alpha", .none) (by simp [optionalKw, ownKw, normalizeKw, commonKw, defaultNoise])]; exact h_alpha
    have g_noise_level : Est.get ⟨⟨.mi, .renyi⟩, data, none, p⟩ "noise_level" PyVal.toNoise = some v := by
      show (p "noise_level").bind _ = _
      rw [ho ("noise_level", .num (1 / 10 ^ 8)) (by simp [optionalKw, ownKw, normalizeKw, commonKw, defaultNoise])]; exact h_noise_level
    have g_normalize : Est.get ⟨⟨.mi, .renyi⟩, data, none, p⟩ "normalize" PyVal.toBool = some nm := by
      show (p "normalize").bind _ = _
      rw [ho ("normalize", .bool false) (by simp [optionalKw, ownKw, normalizeKw, commonKw, defaultNoise])]; exact h_normalize
    have g_offset : Est.get ⟨⟨.mi, .renyi⟩, data, none, p⟩ "offset" PyVal.toOptInt = some o := by
      show (p "offset").bind _ = _
      rw [ho ("offset", .int 0) (by simp [optionalKw, ownKw, normalizeKw, commonKw, defaultNoise])]; exact h_offset
    have g_base : Est.get ⟨⟨.mi, .renyi⟩, data, none, p⟩ "base" PyVal.toBase = some b := by
      show (p "base").bind _ = _
      rw [ho ("base", W.b0) (by simp [optionalKw, ownKw, normalizeKw, commonKw, defaultNoise])]; exact h_base
    simp only [Est.result, Est.mi, bind, Option.bind, Option.getD_some, g_k, g_alpha, g_noise_level, g_normalize, g_offset, g_base, hx, expFam]
  obtain ⟨p, e, hr, ho⟩ := im_mi_eval W data a cond kw ha hc hd (by simp [requiredKw]) h4
  rw [e, hv p hr ho]

theorem e2e_mi_tsallis {W : World} {data : List PyData} {a : PyName} {kw : Kw} {cond : CondKw PyData} (hc : cond.isVal = false) (ha : Names W.lower .mi a .tsallis) (hd : 2 ≤ data.length) 
    (h4 : Only ["k", "q", "noise_level", "normalize", "offset", "base", "seed", "step_size"] kw)
    {k : PyArg} {q : PyArg} {v : ℝ} {nm : Bool} {o : Option Int} {b : Base} 
    (h_k : (kwOr kw "k" (.int 4)).toArg = some k)
    (h_q : (kwOr kw "q" (.none)).toArg = some q)
    (h_noise_level : (kwOr kw "noise_level" (.num (1 / 10 ^ 8))).toNoise = some v)
    (h_normalize : (kwOr kw "normalize" (.bool false)).toBool = some nm)
    (h_offset : (kwOr kw "offset" (.int 0)).toOptInt = some o)
    (h_base : (kwOr kw "base" (W.b0)).toBase = some b)
    {xs : List (KVar)} (hx : data.mapM PyData.toKVar = some xs) :
    imMI W data a cond kw = expMI tsallisVal xs o nm k q (W.noise2 v) b := by
  have hv : ∀ p : Kw, (∀ r ∈ requiredKw .mi .tsallis, p r = kw r) →
      (∀ o ∈ optionalKw W.b0 ⟨.mi, .tsallis⟩, p o.1 = some (kwOr kw o.1 o.2)) →
      Est.result W ⟨⟨.mi, .tsallis⟩, data, none, p⟩ = expMI tsallisVal xs o nm k q (W.noise2 v) b := by
    intro p hr ho
    have g_k : Est.get ⟨⟨.mi, .tsallis⟩, data, none, p⟩ "k" PyVal.toArg = some k := by
      show (p "k").bind _ = _
      rw [ho ("k", .int 4) (by simp [optionalKw, ownKw, normalizeKw, commonKw, defaultNoise])]; exact h_k
    have g_q : Est.get ⟨⟨.mi, .tsallis⟩, data, none, p⟩ "q" PyVal.toArg = some q := by
      show (p "q").bind _ = _
      rw [ho ("q", .none) (by simp [optionalKw, ownKw, normalizeKw, commonKw, defaultNoise])]; exact h_q
    have g_noise_level : Est.get ⟨⟨.mi, .tsallis⟩, data, none, p⟩ "noise_level" PyVal.toNoise = some v := by
      show (p "noise_level").bind _ = _
      rw [ho ("noise_level", .num (1 / 10 ^ 8)) (by simp [optionalKw, ownKw, normalizeKw, commonKw, defaultNoise])]; exact h_noise_level
    have g_normalize : Est.get ⟨⟨.mi, .tsallis⟩, data, none, p⟩ "normalize" PyVal.toBool = some nm := by
      show (p "normalize").bind _ = _
      rw [ho ("normalize", .bool false) (by simp [optionalKw, ownKw, normalizeKw, commonKw, defaultNoise])]; exact h_normalize
    have g_offset : Est.get ⟨⟨.mi, .tsallis⟩, data, none, p⟩ "offset" PyVal.toOptInt = some o := by
      show (p "offset").bind _ = _
      rw [ho ("offset", .int 0) (by simp [optionalKw, ownKw, normalizeKw, commonKw, defaultNoise])]; exact h_offset
    have g_base : Est.get ⟨⟨.mi, .tsallis⟩, data, none, p⟩ "base" PyVal.toBase = some b := by
      show (p "base").bind _ = _
      rw [ho ("base", W.b0) (by simp [optionalKw, ownKw, normalizeKw, commonKw, defaultNoise])]; exact h_base
    simp only [Est.result, Est.mi, bind, Option.bind, Option.getD_some, g_k, g_q, g_noise_level, g_normalize, g_offset, g_base, hx, expFam]
  obtain ⟨p, e, hr, ho⟩ := im_mi_eval W data a cond kw ha hc hd (by simp [requiredKw]) h4
  rw [e, hv p hr ho]

end Verif
