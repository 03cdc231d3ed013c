import Verif.Lemmas.EndToEnd

/-!
# Lemmas: what each public call evaluates, estimator by estimator (Entropy)

Generated by `tools/gen_e2e.py`.  Each lemma: with only accepted keyword arguments, the value of the public function is
the model function of the estimator, at the given keyword arguments or the documented defaults.
-/

set_option linter.unusedSimpArgs false
set_option linter.unusedVariables false

namespace Verif

theorem e2e_h_discrete {W : World} {data : List PyData} {a : PyName} {kw : Kw} (ha : Names W.lower .h a .discrete) 
    (h4 : Only ["base"] kw)
    {b : Base} 
    (h_base : (kwOr kw "base" (W.b0)).toBase = some b)
    {xs : List (EInput)} (hx : data.mapM PyData.toEInput = some xs) :
    imEntropy W data a .absent kw = DClass.globalVal .discrete b xs ∧
      (2 ≤ data.length → imCrossEntropy W data a .absent kw = DClass.globalVal .discrete b xs) := by
  have hv : ∀ p : Kw, (∀ r ∈ requiredKw .h .discrete, p r = kw r) →
      (∀ o ∈ optionalKw W.b0 ⟨.h, .discrete⟩, p o.1 = some (kwOr kw o.1 o.2)) →
      Est.result W ⟨⟨.h, .discrete⟩, data, none, p⟩ = DClass.globalVal .discrete b xs := by
    intro p hr ho
    have g_base : Est.get ⟨⟨.h, .discrete⟩, data, none, p⟩ "base" PyVal.toBase = some b := by
      show (p "base").bind _ = _
      rw [ho ("base", W.b0) (by simp [optionalKw, ownKw, normalizeKw, commonKw, defaultNoise])]; exact h_base
    simp only [Est.result, Est.entropy, bind, Option.bind, Option.getD_some, g_base, hx, Est.dclass]
  refine ⟨?_, fun hd => ?_⟩
  · obtain ⟨p, e, hr, ho⟩ := im_entropy_eval W data a kw ha (by simp [requiredKw]) h4
    rw [e, hv p hr ho]
  · obtain ⟨p, e, hr, ho⟩ := im_cross_eval W data a kw ha hd (by simp [requiredKw]) h4
    rw [e, hv p hr ho]

theorem e2e_h_millerMadow {W : World} {data : List PyData} {a : PyName} {kw : Kw} (ha : Names W.lower .h a .millerMadow) 
    (h4 : Only ["base"] kw)
    {b : Base} 
    (h_base : (kwOr kw "base" (W.b0)).toBase = some b)
    {xs : List (EInput)} (hx : data.mapM PyData.toEInput = some xs) :
    imEntropy W data a .absent kw = DClass.globalVal .millerMadow b xs ∧
      (2 ≤ data.length → imCrossEntropy W data a .absent kw = DClass.globalVal .millerMadow b xs) := by
  have hv : ∀ p : Kw, (∀ r ∈ requiredKw .h .millerMadow, p r = kw r) →
      (∀ o ∈ optionalKw W.b0 ⟨.h, .millerMadow⟩, p o.1 = some (kwOr kw o.1 o.2)) →
      Est.result W ⟨⟨.h, .millerMadow⟩, data, none, p⟩ = DClass.globalVal .millerMadow b xs := by
    intro p hr ho
    have g_base : Est.get ⟨⟨.h, .millerMadow⟩, data, none, p⟩ "base" PyVal.toBase = some b := by
      show (p "base").bind _ = _
      rw [ho ("base", W.b0) (by simp [optionalKw, ownKw, normalizeKw, commonKw, defaultNoise])]; exact h_base
    simp only [Est.result, Est.entropy, bind, Option.bind, Option.getD_some, g_base, hx, Est.dclass]
  refine ⟨?_, fun hd => ?_⟩
  · obtain ⟨p, e, hr, ho⟩ := im_entropy_eval W data a kw ha (by simp [requiredKw]) h4
    rw [e, hv p hr ho]
  · obtain ⟨p, e, hr, ho⟩ := im_cross_eval W data a kw ha hd (by simp [requiredKw]) h4
    rw [e, hv p hr ho]

theorem e2e_h_grassberger {W : World} {data : List PyData} {a : PyName} {kw : Kw} (ha : Names W.lower .h a .grassberger) 
    (h4 : Only ["base"] kw)
    {b : Base} 
    (h_base : (kwOr kw "base" (W.b0)).toBase = some b)
    {xs : List (EInput)} (hx : data.mapM PyData.toEInput = some xs) :
    imEntropy W data a .absent kw = DClass.globalVal .grassberger b xs ∧
      (2 ≤ data.length → imCrossEntropy W data a .absent kw = DClass.globalVal .grassberger b xs) := by
  have hv : ∀ p : Kw, (∀ r ∈ requiredKw .h .grassberger, p r = kw r) →
      (∀ o ∈ optionalKw W.b0 ⟨.h, .grassberger⟩, p o.1 = some (kwOr kw o.1 o.2)) →
      Est.result W ⟨⟨.h, .grassberger⟩, data, none, p⟩ = DClass.globalVal .grassberger b xs := by
    intro p hr ho
    have g_base : Est.get ⟨⟨.h, .grassberger⟩, data, none, p⟩ "base" PyVal.toBase = some b := by
      show (p "base").bind _ = _
      rw [ho ("base", W.b0) (by simp [optionalKw, ownKw, normalizeKw, commonKw, defaultNoise])]; exact h_base
    simp only [Est.result, Est.entropy, bind, Option.bind, Option.getD_some, g_base, hx, Est.dclass]
  refine ⟨?_, fun hd => ?_⟩
  · obtain ⟨p, e, hr, ho⟩ := im_entropy_eval W data a kw ha (by simp [requiredKw]) h4
    rw [e, hv p hr ho]
  · obtain ⟨p, e, hr, ho⟩ := im_cross_eval W data a kw ha hd (by simp [requiredKw]) h4
    rw [e, hv p hr ho]

theorem e2e_h_chaoShen {W : World} {data : List PyData} {a : PyName} {kw : Kw} (ha : Names W.lower .h a .chaoShen) 
    (h4 : Only ["base"] kw)
    {b : Base} 
    (h_base : (kwOr kw "base" (W.b0)).toBase = some b)
    {xs : List (EInput)} (hx : data.mapM PyData.toEInput = some xs) :
    imEntropy W data a .absent kw = DClass.globalVal .chaoShen b xs ∧
      (2 ≤ data.length → imCrossEntropy W data a .absent kw = DClass.globalVal .chaoShen b xs) := by
  have hv : ∀ p : Kw, (∀ r ∈ requiredKw .h .chaoShen, p r = kw r) →
      (∀ o ∈ optionalKw W.b0 ⟨.h, .chaoShen⟩, p o.1 = some (kwOr kw o.1 o.2)) →
      Est.result W ⟨⟨.h, .chaoShen⟩, data, none, p⟩ = DClass.globalVal .chaoShen b xs := by
    intro p hr ho
    have g_base : Est.get ⟨⟨.h, .chaoShen⟩, data, none, p⟩ "base" PyVal.toBase = some b := by
      show (p "base").bind _ = _
      rw [ho ("base", W.b0) (by simp [optionalKw, ownKw, normalizeKw, commonKw, defaultNoise])]; exact h_base
    simp only [Est.result, Est.entropy, bind, Option.bind, Option.getD_some, g_base, hx, Est.dclass]
  refine ⟨?_, fun hd => ?_⟩
  · obtain ⟨p, e, hr, ho⟩ := im_entropy_eval W data a kw ha (by simp [requiredKw]) h4
    rw [e, hv p hr ho]
  · obtain ⟨p, e, hr, ho⟩ := im_cross_eval W data a kw ha hd (by simp [requiredKw]) h4
    rw [e, hv p hr ho]

theorem e2e_h_chaoWangJost {W : World} {data : List PyData} {a : PyName} {kw : Kw} (ha : Names W.lower .h a .chaoWangJost) 
    (h4 : Only ["base"] kw)
    {b : Base} 
    (h_base : (kwOr kw "base" (W.b0)).toBase = some b)
    {xs : List (EInput)} (hx : data.mapM PyData.toEInput = some xs) :
    imEntropy W data a .absent kw = DClass.globalVal .chaoWangJost b xs ∧
      (2 ≤ data.length → imCrossEntropy W data a .absent kw = DClass.globalVal .chaoWangJost b xs) := by
  have hv : ∀ p : Kw, (∀ r ∈ requiredKw .h .chaoWangJost, p r = kw r) →
      (∀ o ∈ optionalKw W.b0 ⟨.h, .chaoWangJost⟩, p o.1 = some (kwOr kw o.1 o.2)) →
      Est.result W ⟨⟨.h, .chaoWangJost⟩, data, none, p⟩ = DClass.globalVal .chaoWangJost b xs := by
    intro p hr ho
    have g_base : Est.get ⟨⟨.h, .chaoWangJost⟩, data, none, p⟩ "base" PyVal.toBase = some b := by
      show (p "base").bind _ = _
      rw [ho ("base", W.b0) (by simp [optionalKw, ownKw, normalizeKw, commonKw, defaultNoise])]; exact h_base
    simp only [Est.result, Est.entropy, bind, Option.bind, Option.getD_some, g_base, hx, Est.dclass]
  refine ⟨?_, fun hd => ?_⟩
  · obtain ⟨p, e, hr, ho⟩ := im_entropy_eval W data a kw ha (by simp [requiredKw]) h4
    rw [e, hv p hr ho]
  · obtain ⟨p, e, hr, ho⟩ := im_cross_eval W data a kw ha hd (by simp [requiredKw]) h4
    rw [e, hv p hr ho]

theorem e2e_h_shrink {W : World} {data : List PyData} {a : PyName} {kw : Kw} (ha : Names W.lower .h a .shrink) 
    (h4 : Only ["base"] kw)
    {b : Base} 
    (h_base : (kwOr kw "base" (W.b0)).toBase = some b)
    {xs : List (EInput)} (hx : data.mapM PyData.toEInput = some xs) :
    imEntropy W data a .absent kw = DClass.globalVal .shrink b xs ∧
      (2 ≤ data.length → imCrossEntropy W data a .absent kw = DClass.globalVal .shrink b xs) := by
  have hv : ∀ p : Kw, (∀ r ∈ requiredKw .h .shrink, p r = kw r) →
      (∀ o ∈ optionalKw W.b0 ⟨.h, .shrink⟩, p o.1 = some (kwOr kw o.1 o.2)) →
      Est.result W ⟨⟨.h, .shrink⟩, data, none, p⟩ = DClass.globalVal .shrink b xs := by
    intro p hr ho
    have g_base : Est.get ⟨⟨.h, .shrink⟩, data, none, p⟩ "base" PyVal.toBase = some b := by
      show (p "base").bind _ = _
      rw [ho ("base", W.b0) (by simp [optionalKw, ownKw, normalizeKw, commonKw, defaultNoise])]; exact h_base
    simp only [Est.result, Est.entropy, bind, Option.bind, Option.getD_some, g_base, hx, Est.dclass]
  refine ⟨?_, fun hd => ?_⟩
  · obtain ⟨p, e, hr, ho⟩ := im_entropy_eval W data a kw ha (by simp [requiredKw]) h4
    rw [e, hv p hr ho]
  · obtain ⟨p, e, hr, ho⟩ := im_cross_eval W data a kw ha hd (by simp [requiredKw]) h4
    rw [e, hv p hr ho]

theorem e2e_h_zhang {W : World} {data : List PyData} {a : PyName} {kw : Kw} (ha : Names W.lower .h a .zhang) 
    (h4 : Only ["base"] kw)
    {b : Base} 
    (h_base : (kwOr kw "base" (W.b0)).toBase = some b)
    {xs : List (EInput)} (hx : data.mapM PyData.toEInput = some xs) :
    imEntropy W data a .absent kw = DClass.globalVal .zhang b xs ∧
      (2 ≤ data.length → imCrossEntropy W data a .absent kw = DClass.globalVal .zhang b xs) := by
  have hv : ∀ p : Kw, (∀ r ∈ requiredKw .h .zhang, p r = kw r) →
      (∀ o ∈ optionalKw W.b0 ⟨.h, .zhang⟩, p o.1 = some (kwOr kw o.1 o.2)) →
      Est.result W ⟨⟨.h, .zhang⟩, data, none, p⟩ = DClass.globalVal .zhang b xs := by
    intro p hr ho
    have g_base : Est.get ⟨⟨.h, .zhang⟩, data, none, p⟩ "base" PyVal.toBase = some b := by
      show (p "base").bind _ = _
      rw [ho ("base", W.b0) (by simp [optionalKw, ownKw, normalizeKw, commonKw, defaultNoise])]; exact h_base
    simp only [Est.result, Est.entropy, bind, Option.bind, Option.getD_some, g_base, hx, Est.dclass]
  refine ⟨?_, fun hd => ?_⟩
  · obtain ⟨p, e, hr, ho⟩ := im_entropy_eval W data a kw ha (by simp [requiredKw]) h4
    rw [e, hv p hr ho]
  · obtain ⟨p, e, hr, ho⟩ := im_cross_eval W data a kw ha hd (by simp [requiredKw]) h4
    rw [e, hv p hr ho]

theorem e2e_h_bonachela {W : World} {data : List PyData} {a : PyName} {kw : Kw} (ha : Names W.lower .h a .bonachela) 
    (h4 : Only ["base"] kw)
    {b : Base} 
    (h_base : (kwOr kw "base" (W.b0)).toBase = some b)
    {xs : List (EInput)} (hx : data.mapM PyData.toEInput = some xs) :
    imEntropy W data a .absent kw = DClass.globalVal .bonachela b xs ∧
      (2 ≤ data.length → imCrossEntropy W data a .absent kw = DClass.globalVal .bonachela b xs) := by
  have hv : ∀ p : Kw, (∀ r ∈ requiredKw .h .bonachela, p r = kw r) →
      (∀ o ∈ optionalKw W.b0 ⟨.h, .bonachela⟩, p o.1 = some (kwOr kw o.1 o.2)) →
      Est.result W ⟨⟨.h, .bonachela⟩, data, none, p⟩ = DClass.globalVal .bonachela b xs := by
    intro p hr ho
    have g_base : Est.get ⟨⟨.h, .bonachela⟩, data, none, p⟩ "base" PyVal.toBase = some b := by
      show (p "base").bind _ = _
      rw [ho ("base", W.b0) (by simp [optionalKw, ownKw, normalizeKw, commonKw, defaultNoise])]; exact h_base
    simp only [Est.result, Est.entropy, bind, Option.bind, Option.getD_some, g_base, hx, Est.dclass]
  refine ⟨?_, fun hd => ?_⟩
  · obtain ⟨p, e, hr, ho⟩ := im_entropy_eval W data a kw ha (by simp [requiredKw]) h4
    rw [e, hv p hr ho]
  · obtain ⟨p, e, hr, ho⟩ := im_cross_eval W data a kw ha hd (by simp [requiredKw]) h4
    rw [e, hv p hr ho]

theorem e2e_h_bayes {W : World} {data : List PyData} {a : PyName} {kw : Kw} (ha : Names W.lower .h a .bayes) 
    (h4 : Only ["alpha", "K", "base"] kw)
    {al : AlphaArg} {K : Option Nat} {b : Base} 
    (h_alpha : (kw "alpha").bind PyVal.toAlpha = some al)
    (h_K : (kwOr kw "K" (.none)).toOptNat = some K)
    (h_base : (kwOr kw "base" (W.b0)).toBase = some b)
    {xs : List (EInput)} (hx : data.mapM PyData.toEInput = some xs) :
    imEntropy W data a .absent kw = DClass.globalVal (.bayes al K) b xs ∧
      (2 ≤ data.length → imCrossEntropy W data a .absent kw = DClass.globalVal (.bayes al K) b xs) := by
  have hv : ∀ p : Kw, (∀ r ∈ requiredKw .h .bayes, p r = kw r) →
      (∀ o ∈ optionalKw W.b0 ⟨.h, .bayes⟩, p o.1 = some (kwOr kw o.1 o.2)) →
      Est.result W ⟨⟨.h, .bayes⟩, data, none, p⟩ = DClass.globalVal (.bayes al K) b xs := by
    intro p hr ho
    have g_alpha : Est.get ⟨⟨.h, .bayes⟩, data, none, p⟩ "alpha" PyVal.toAlpha = some al := by
      show (p "alpha").bind _ = _
      rw [hr "alpha" (by simp [requiredKw])]; exact h_alpha
    have g_K : Est.get ⟨⟨.h, .bayes⟩, data, none, p⟩ "K" PyVal.toOptNat = some K := by
      show (p "K").bind _ = _
      rw [ho ("K", .none) (by simp [optionalKw, ownKw, normalizeKw, commonKw, defaultNoise])]; exact h_K
    have g_base : Est.get ⟨⟨.h, .bayes⟩, data, none, p⟩ "base" PyVal.toBase = some b := by
      show (p "base").bind _ = _
      rw [ho ("base", W.b0) (by simp [optionalKw, ownKw, normalizeKw, commonKw, defaultNoise])]; exact h_base
    simp only [Est.result, Est.entropy, bind, Option.bind, Option.getD_some, g_alpha, g_K, g_base, hx, Est.dclass]
  refine ⟨?_, fun hd => ?_⟩
  · obtain ⟨p, e, hr, ho⟩ := im_entropy_eval W data a kw ha (by
    intro r hr
    simp only [requiredKw, List.mem_cons, List.not_mem_nil, or_false] at hr
    rcases hr with rfl
    · intro hn; rw [hn] at h_alpha; simp at h_alpha) h4
    rw [e, hv p hr ho]
  · obtain ⟨p, e, hr, ho⟩ := im_cross_eval W data a kw ha hd (by
    intro r hr
    simp only [requiredKw, List.mem_cons, List.not_mem_nil, or_false] at hr
    rcases hr with rfl
    · intro hn; rw [hn] at h_alpha; simp at h_alpha) h4
    rw [e, hv p hr ho]

theorem e2e_h_ansb {W : World} {data : List PyData} {a : PyName} {kw : Kw} (ha : Names W.lower .h a .ansb) 
    (h4 : Only ["K", "undersampled", "base"] kw)
    {K : Option Int} {b : Base} 
    (h_K : (kwOr kw "K" (.none)).toOptInt = some K)
    (h_base : (kwOr kw "base" (W.b0)).toBase = some b)
    {xs : List (EInput)} (hx : data.mapM PyData.toEInput = some xs) :
    imEntropy W data a .absent kw = DClass.globalVal (.ansb K) b xs ∧
      (2 ≤ data.length → imCrossEntropy W data a .absent kw = DClass.globalVal (.ansb K) b xs) := by
  have hv : ∀ p : Kw, (∀ r ∈ requiredKw .h .ansb, p r = kw r) →
      (∀ o ∈ optionalKw W.b0 ⟨.h, .ansb⟩, p o.1 = some (kwOr kw o.1 o.2)) →
      Est.result W ⟨⟨.h, .ansb⟩, data, none, p⟩ = DClass.globalVal (.ansb K) b xs := by
    intro p hr ho
    have g_K : Est.get ⟨⟨.h, .ansb⟩, data, none, p⟩ "K" PyVal.toOptInt = some K := by
      show (p "K").bind _ = _
      rw [ho ("K", .none) (by simp [optionalKw, ownKw, normalizeKw, commonKw, defaultNoise])]; exact h_K
    have g_base : Est.get ⟨⟨.h, .ansb⟩, data, none, p⟩ "base" PyVal.toBase = some b := by
      show (p "base").bind _ = _
      rw [ho ("base", W.b0) (by simp [optionalKw, ownKw, normalizeKw, commonKw, defaultNoise])]; exact h_base
    simp only [Est.result, Est.entropy, bind, Option.bind, Option.getD_some, g_K, g_base, hx, Est.dclass]
  refine ⟨?_, fun hd => ?_⟩
  · obtain ⟨p, e, hr, ho⟩ := im_entropy_eval W data a kw ha (by simp [requiredKw]) h4
    rw [e, hv p hr ho]
  · obtain ⟨p, e, hr, ho⟩ := im_cross_eval W data a kw ha hd (by simp [requiredKw]) h4
    rw [e, hv p hr ho]

theorem e2e_h_nsb {W : World} {data : List PyData} {a : PyName} {kw : Kw} (ha : Names W.lower .h a .nsb) 
    (h4 : Only ["K", "base"] kw)
    {K : Option Int} {b : Base} 
    (h_K : (kwOr kw "K" (.none)).toOptInt = some K)
    (h_base : (kwOr kw "base" (W.b0)).toBase = some b)
    {xs : List (EInput)} (hx : data.mapM PyData.toEInput = some xs) :
    imEntropy W data a .absent kw = nsbEntropy W.find K b xs ∧
      (2 ≤ data.length → imCrossEntropy W data a .absent kw = nsbEntropy W.find K b xs) := by
  have hv : ∀ p : Kw, (∀ r ∈ requiredKw .h .nsb, p r = kw r) →
      (∀ o ∈ optionalKw W.b0 ⟨.h, .nsb⟩, p o.1 = some (kwOr kw o.1 o.2)) →
      Est.result W ⟨⟨.h, .nsb⟩, data, none, p⟩ = nsbEntropy W.find K b xs := by
    intro p hr ho
    have g_K : Est.get ⟨⟨.h, .nsb⟩, data, none, p⟩ "K" PyVal.toOptInt = some K := by
      show (p "K").bind _ = _
      rw [ho ("K", .none) (by simp [optionalKw, ownKw, normalizeKw, commonKw, defaultNoise])]; exact h_K
    have g_base : Est.get ⟨⟨.h, .nsb⟩, data, none, p⟩ "base" PyVal.toBase = some b := by
      show (p "base").bind _ = _
      rw [ho ("base", W.b0) (by simp [optionalKw, ownKw, normalizeKw, commonKw, defaultNoise])]; exact h_base
    simp only [Est.result, Est.entropy, bind, Option.bind, Option.getD_some, g_K, g_base, hx]
  refine ⟨?_, fun hd => ?_⟩
  · obtain ⟨p, e, hr, ho⟩ := im_entropy_eval W data a kw ha (by simp [requiredKw]) h4
    rw [e, hv p hr ho]
  · obtain ⟨p, e, hr, ho⟩ := im_cross_eval W data a kw ha hd (by simp [requiredKw]) h4
    rw [e, hv p hr ho]

theorem e2e_h_ordinal {W : World} {data : List PyData} {a : PyName} {kw : Kw} (ha : Names W.lower .h a .ordinal) 
    (h4 : Only ["embedding_dim", "step_size", "stable", "base"] kw)
    {d : PyArg} {s : PyArg} {st : Bool} {b : Base} 
    (h_embedding_dim : (kw "embedding_dim").bind PyVal.toArg = some d)
    (h_step_size : (kwOr kw "step_size" (.int 1)).toArg = some s)
    (h_stable : (kwOr kw "stable" (.bool false)).toBool = some st)
    (h_base : (kwOr kw "base" (W.b0)).toBase = some b) :
    imEntropy W data a .absent kw = ordEntropy W.quick (data.map PyData.toOInput) { dim := d, step := s, stable := st } b ∧
      (2 ≤ data.length → imCrossEntropy W data a .absent kw = ordEntropy W.quick (data.map PyData.toOInput) { dim := d, step := s, stable := st } b) := by
  have hv : ∀ p : Kw, (∀ r ∈ requiredKw .h .ordinal, p r = kw r) →
      (∀ o ∈ optionalKw W.b0 ⟨.h, .ordinal⟩, p o.1 = some (kwOr kw o.1 o.2)) →
      Est.result W ⟨⟨.h, .ordinal⟩, data, none, p⟩ = ordEntropy W.quick (data.map PyData.toOInput) { dim := d, step := s, stable := st } b := by
    intro p hr ho
    have g_embedding_dim : Est.get ⟨⟨.h, .ordinal⟩, data, none, p⟩ "embedding_dim" PyVal.toArg = some d := by
      show (p "embedding_dim").bind _ = _
      rw [hr "embedding_dim" (by simp [requiredKw])]; exact h_embedding_dim
    have g_step_size : Est.get ⟨⟨.h, .ordinal⟩, data, none, p⟩ "step_size" PyVal.toArg = some s := by
      show (p "step_size").bind _ = _
      rw [ho ("step_size", .int 1) (by simp [optionalKw, ownKw, normalizeKw, commonKw, defaultNoise])]; exact h_step_size
    have g_stable : Est.get ⟨⟨.h, .ordinal⟩, data, none, p⟩ "stable" PyVal.toBool = some st := by
      show (p "stable").bind _ = _
      rw [ho ("stable", .bool false) (by simp [optionalKw, ownKw, normalizeKw, commonKw, defaultNoise])]; exact h_stable
    have g_base : Est.get ⟨⟨.h, .ordinal⟩, data, none, p⟩ "base" PyVal.toBase = some b := by
      show (p "base").bind _ = _
      rw [ho ("base", W.b0) (by simp [optionalKw, ownKw, normalizeKw, commonKw, defaultNoise])]; exact h_base
    simp only [Est.result, Est.entropy, bind, Option.bind, Option.getD_some, g_embedding_dim, g_step_size, g_stable, g_base, Est.ord]
  refine ⟨?_, fun hd => ?_⟩
  · obtain ⟨p, e, hr, ho⟩ := im_entropy_eval W data a kw ha (by
    intro r hr
    simp only [requiredKw, List.mem_cons, List.not_mem_nil, or_false] at hr
    rcases hr with rfl
    · intro hn; rw [hn] at h_embedding_dim; simp at h_embedding_dim) h4
    rw [e, hv p hr ho]
  · obtain ⟨p, e, hr, ho⟩ := im_cross_eval W data a kw ha hd (by
    intro r hr
    simp only [requiredKw, List.mem_cons, List.not_mem_nil, or_false] at hr
    rcases hr with rfl
    · intro hn; rw [hn] at h_embedding_dim; simp at h_embedding_dim) h4
    rw [e, hv p hr ho]

theorem e2e_h_kernel {W : World} {data : List PyData} {a : PyName} {kw : Kw} (ha : Names W.lower .h a .kernel) 
    (h4 : Only ["bandwidth", "kernel", "workers", "base"] kw)
    {h : PyArg} {kn : Kernel} {w : Int} {b : Base} 
    (h_bandwidth : (kw "bandwidth").bind PyVal.toArg = some h)
    (h_kernel : (kw "kernel").bind (PyVal.toKernel W.eig) = some kn)
    (h_workers : (kwOr kw "workers" (.int 1)).toInt = some w)
    (h_base : (kwOr kw "base" (W.b0)).toBase = some b) :
    imEntropy W data a .absent kw = kernelEntropy (data.map PyData.toKArg) { bandwidth := h, kernel := kn, workers := resolveWorkers W.cpu w } b ∧
      (2 ≤ data.length → imCrossEntropy W data a .absent kw = kernelEntropy (data.map PyData.toKArg) { bandwidth := h, kernel := kn, workers := resolveWorkers W.cpu w } b) := by
  have hv : ∀ p : Kw, (∀ r ∈ requiredKw .h .kernel, p r = kw r) →
      (∀ o ∈ optionalKw W.b0 ⟨.h, .kernel⟩, p o.1 = some (kwOr kw o.1 o.2)) →
      Est.result W ⟨⟨.h, .kernel⟩, data, none, p⟩ = kernelEntropy (data.map PyData.toKArg) { bandwidth := h, kernel := kn, workers := resolveWorkers W.cpu w } b := by
    intro p hr ho
    have g_bandwidth : Est.get ⟨⟨.h, .kernel⟩, data, none, p⟩ "bandwidth" PyVal.toArg = some h := by
      show (p "bandwidth").bind _ = _
      rw [hr "bandwidth" (by simp [requiredKw])]; exact h_bandwidth
    have g_kernel : Est.get ⟨⟨.h, .kernel⟩, data, none, p⟩ "kernel" (PyVal.toKernel W.eig) = some kn := by
      show (p "kernel").bind _ = _
      rw [hr "kernel" (by simp [requiredKw])]; exact h_kernel
    have g_workers : Est.get ⟨⟨.h, .kernel⟩, data, none, p⟩ "workers" PyVal.toInt = some w := by
      show (p "workers").bind _ = _
      rw [ho ("workers", .int 1) (by simp [optionalKw, ownKw, normalizeKw, commonKw, defaultNoise])]; exact h_workers
    have g_base : Est.get ⟨⟨.h, .kernel⟩, data, none, p⟩ "base" PyVal.toBase = some b := by
      show (p "base").bind _ = _
      rw [ho ("base", W.b0) (by simp [optionalKw, ownKw, normalizeKw, commonKw, defaultNoise])]; exact h_base
    simp only [Est.result, Est.entropy, bind, Option.bind, Option.getD_some, g_bandwidth, g_kernel, g_workers, g_base, Est.kde]
  refine ⟨?_, fun hd => ?_⟩
  · obtain ⟨p, e, hr, ho⟩ := im_entropy_eval W data a kw ha (by
    intro r hr
    simp only [requiredKw, List.mem_cons, List.not_mem_nil, or_false] at hr
    rcases hr with rfl | rfl
    · intro hn; rw [hn] at h_bandwidth; simp at h_bandwidth
    · intro hn; rw [hn] at h_kernel; simp at h_kernel) h4
    rw [e, hv p hr ho]
  · obtain ⟨p, e, hr, ho⟩ := im_cross_eval W data a kw ha hd (by
    intro r hr
    simp only [requiredKw, List.mem_cons, List.not_mem_nil, or_false] at hr
    rcases hr with rfl | rfl
    · intro hn; rw [hn] at h_bandwidth; simp at h_bandwidth
    · intro hn; rw [hn] at h_kernel; simp at h_kernel) h4
    rw [e, hv p hr ho]

theorem e2e_h_metric {W : World} {data : List PyData} {a : PyName} {kw : Kw} (ha : Names W.lower .h a .metric) 
    (h4 : Only ["k", "ksg_id", "noise_level", "minkowski_p", "base"] kw)
    {k : PyArg} {i : Int} {v : ℝ} {mp : PNorm} {b : Base} 
    (h_k : (kwOr kw "k" (.int 4)).toArg = some k)
    (h_ksg_id : (kwOr kw "ksg_id" (.int 1)).toInt = some i)
    (h_noise_level : (kwOr kw "noise_level" (.num (1 / 10 ^ 10))).toNum = some v)
    (h_minkowski_p : (kwOr kw "minkowski_p" (.inf)).toPNorm = some mp)
    (h_base : (kwOr kw "base" (W.b0)).toBase = some b) :
    imEntropy W data a .absent kw = (open Classical in klEntropy (data.map PyData.toKArg) { k := k, ksgId := i, noiseNegative := decide (v < 0), p := mp } (W.noise2 v 0) (W.noise2 v 1) b) ∧
      (2 ≤ data.length → imCrossEntropy W data a .absent kw = (open Classical in klEntropy (data.map PyData.toKArg) { k := k, ksgId := i, noiseNegative := decide (v < 0), p := mp } (W.noise2 v 0) (W.noise2 v 1) b)) := by
  have hv : ∀ p : Kw, (∀ r ∈ requiredKw .h .metric, p r = kw r) →
      (∀ o ∈ optionalKw W.b0 ⟨.h, .metric⟩, p o.1 = some (kwOr kw o.1 o.2)) →
      Est.result W ⟨⟨.h, .metric⟩, data, none, p⟩ = (open Classical in klEntropy (data.map PyData.toKArg) { k := k, ksgId := i, noiseNegative := decide (v < 0), p := mp } (W.noise2 v 0) (W.noise2 v 1) b) := by
    intro p hr ho
    have g_k : Est.get ⟨⟨.h, .metric⟩, data, none, p⟩ "k" PyVal.toArg = some k := by
      show (p "k").bind _ = _
      rw [ho ("k", .int 4) (by simp [optionalKw, ownKw, normalizeKw, commonKw, defaultNoise])]; exact h_k
    have g_ksg_id : Est.get ⟨⟨.h, .metric⟩, data, none, p⟩ "ksg_id" PyVal.toInt = some i := by
      show (p "ksg_id").bind _ = _
      rw [ho ("ksg_id", .int 1) (by simp [optionalKw, ownKw, normalizeKw, commonKw, defaultNoise])]; exact h_ksg_id
    have g_noise_level : Est.get ⟨⟨.h, .metric⟩, data, none, p⟩ "noise_level" PyVal.toNum = some v := by
      show (p "noise_level").bind _ = _
      rw [ho ("noise_level", .num (1 / 10 ^ 10)) (by simp [optionalKw, ownKw, normalizeKw, commonKw, defaultNoise])]; exact h_noise_level
    have g_minkowski_p : Est.get ⟨⟨.h, .metric⟩, data, none, p⟩ "minkowski_p" PyVal.toPNorm = some mp := by
      show (p "minkowski_p").bind _ = _
      rw [ho ("minkowski_p", .inf) (by simp [optionalKw, ownKw, normalizeKw, commonKw, defaultNoise])]; exact h_minkowski_p
    have g_base : Est.get ⟨⟨.h, .metric⟩, data, none, p⟩ "base" PyVal.toBase = some b := by
      show (p "base").bind _ = _
      rw [ho ("base", W.b0) (by simp [optionalKw, ownKw, normalizeKw, commonKw, defaultNoise])]; exact h_base
    simp only [Est.result, Est.entropy, bind, Option.bind, Option.getD_some, g_k, g_ksg_id, g_noise_level, g_minkowski_p, g_base]
  refine ⟨?_, fun hd => ?_⟩
  · obtain ⟨p, e, hr, ho⟩ := im_entropy_eval W data a kw ha (by simp [requiredKw]) h4
    rw [e, hv p hr ho]
  · obtain ⟨p, e, hr, ho⟩ := im_cross_eval W data a kw ha hd (by simp [requiredKw]) h4
    rw [e, hv p hr ho]

theorem e2e_h_renyi {W : World} {data : List PyData} {a : PyName} {kw : Kw} (ha : Names W.lower .h a .renyi) 
    (h4 : Only ["k", "alpha", "base"] kw)
    {k : PyArg} {q : PyArg} {b : Base} 
    (h_k : (kwOr kw "k" (.int 4)).toArg = some k)
    (h_alpha : (kwOr kw "alpha" (.none)).toArg = some q)
    (h_base : (kwOr kw "base" (W.b0)).toBase = some b) :
    imEntropy W data a .absent kw = expEntropy renyiVal (data.map PyData.toKArg) k q b ∧
      (2 ≤ data.length → imCrossEntropy W data a .absent kw = expEntropy renyiVal (data.map PyData.toKArg) k q b) := by
  have hv : ∀ p : Kw, (∀ r ∈ requiredKw .h .renyi, p r = kw r) →
      (∀ o ∈ optionalKw W.b0 ⟨.h, .renyi⟩, p o.1 = some (kwOr kw o.1 o.2)) →
      Est.result W ⟨⟨.h, .renyi⟩, data, none, p⟩ = expEntropy renyiVal (data.map PyData.toKArg) k q b := by
    intro p hr ho
    have g_k : Est.get ⟨⟨.h, .renyi⟩, data, none, p⟩ "k" PyVal.toArg = some k := by
      show (p "k").bind _ = _
      rw [ho ("k", .int 4) (by simp [optionalKw, ownKw, normalizeKw, commonKw, defaultNoise])]; exact h_k
    have g_alpha : Est.get ⟨⟨.h, .renyi⟩, data, none, p⟩ "alpha" PyVal.toArg = some q := by
      show (p "alpha").bind _ = _
      rw [ho ("alpha", .none) (by simp [optionalKw, ownKw, normalizeKw, commonKw, defaultNoise])]; exact h_alpha
    have g_base : Est.get ⟨⟨.h, .renyi⟩, data, none, p⟩ "base" PyVal.toBase = some b := by
      show (p "base").bind _ = _
      rw [ho ("base", W.b0) (by simp [optionalKw, ownKw, normalizeKw, commonKw, defaultNoise])]; exact h_base
    simp only [Est.result, Est.entropy, bind, Option.bind, Option.getD_some, g_k, g_alpha, g_base, expFam]
  refine ⟨?_, fun hd => ?_⟩
  · obtain ⟨p, e, hr, ho⟩ := im_entropy_eval W data a kw ha (by simp [requiredKw]) h4
    rw [e, hv p hr ho]
  · obtain ⟨p, e, hr, ho⟩ := im_cross_eval W data a kw ha hd (by simp [requiredKw]) h4
    rw [e, hv p hr ho]

theorem e2e_h_tsallis {W : World} {data : List PyData} {a : PyName} {kw : Kw} (ha : Names W.lower .h a .tsallis) 
    (h4 : Only ["k", "q", "base"] kw)
    {k : PyArg} {q : PyArg} {b : Base} 
    (h_k : (kwOr kw "k" (.int 4)).toArg = some k)
    (h_q : (kwOr kw "q" (.none)).toArg = some q)
    (h_base : (kwOr kw "base" (W.b0)).toBase = some b) :
    imEntropy W data a .absent kw = expEntropy tsallisVal (data.map PyData.toKArg) k q b ∧
      (2 ≤ data.length → imCrossEntropy W data a .absent kw = expEntropy tsallisVal (data.map PyData.toKArg) k q b) := by
  have hv : ∀ p : Kw, (∀ r ∈ requiredKw .h .tsallis, p r = kw r) →
      (∀ o ∈ optionalKw W.b0 ⟨.h, .tsallis⟩, p o.1 = some (kwOr kw o.1 o.2)) →
      Est.result W ⟨⟨.h, .tsallis⟩, data, none, p⟩ = expEntropy tsallisVal (data.map PyData.toKArg) k q b := by
    intro p hr ho
    have g_k : Est.get ⟨⟨.h, .tsallis⟩, data, none, p⟩ "k" PyVal.toArg = some k := by
      show (p "k").bind _ = _
      rw [ho ("k", .int 4) (by simp [optionalKw, ownKw, normalizeKw, commonKw, defaultNoise])]; exact h_k
    have g_q : Est.get ⟨⟨.h, .tsallis⟩, data, none, p⟩ "q" PyVal.toArg = some q := by
      show (p "q").bind _ = _
      rw [ho ("q", .none) (by simp [optionalKw, ownKw, normalizeKw, commonKw, defaultNoise])]; exact h_q
    have g_base : Est.get ⟨⟨.h, .tsallis⟩, data, none, p⟩ "base" PyVal.toBase = some b := by
      show (p "base").bind _ = _
      rw [ho ("base", W.b0) (by simp [optionalKw, ownKw, normalizeKw, commonKw, defaultNoise])]; exact h_base
    simp only [Est.result, Est.entropy, bind, Option.bind, Option.getD_some, g_k, g_q, g_base, expFam]
  refine ⟨?_, fun hd => ?_⟩
  · obtain ⟨p, e, hr, ho⟩ := im_entropy_eval W data a kw ha (by simp [requiredKw]) h4
    rw [e, hv p hr ho]
  · obtain ⟨p, e, hr, ho⟩ := im_cross_eval W data a kw ha hd (by simp [requiredKw]) h4
    rw [e, hv p hr ho]

end Verif
