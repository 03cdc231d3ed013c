import Verif.Lemmas.EndToEnd
import Verif.Lemmas.EndToEndVec

/-!
# Lemmas: what each public call evaluates, estimator by estimator (transfer entropy of vector-valued series)

Generated by `tools/gen_e2e.py`.  Each lemma: with only accepted keyword arguments, the value of the public function is
the model function of the estimator, at the given keyword arguments or the documented defaults.
-/

set_option linter.unusedSimpArgs false
set_option linter.unusedVariables false

namespace Verif

theorem e2e_vte_discrete {W : World} {dx dy : PyData} {a : PyName} {kw : Kw} {cond : CondKw PyData} (hc : cond.isVal = false) (ha : Names W.lower .te a .discrete) 
    (h4 : Only ["prop_time", "step_size", "src_hist_len", "dest_hist_len", "cond_hist_len", "offset", "base", "seed"] kw)
    {u : Option PyArg} {s : PyArg} {sh : PyArg} {dh : PyArg} {o : Option PyArg} {b : Base} 
    (h_prop_time : (kwOr kw "prop_time" (.int 0)).toOptArg = some u)
    (h_step_size : (kwOr kw "step_size" (.int 1)).toArg = some s)
    (h_src_hist_len : (kwOr kw "src_hist_len" (.int 1)).toArg = some sh)
    (h_dest_hist_len : (kwOr kw "dest_hist_len" (.int 1)).toArg = some dh)
    (h_offset : (kwOr kw "offset" (.none)).toOptArg = some o)
    (h_base : (kwOr kw "base" (W.b0)).toBase = some b)
    {x y : List (List Int)} (hx : PyData.toIntRows dx = some x) (hy : PyData.toIntRows dy = some y) :
    imTE W.vec [dx, dy] a cond kw = discreteTEVec x y { srcHist := sh, destHist := dh, step := s } u o b false := by
  have hv : ∀ p : Kw, (∀ r ∈ requiredKw .te .discrete, p r = kw r) →
      (∀ o ∈ optionalKw W.b0 ⟨.te, .discrete⟩, p o.1 = some (kwOr kw o.1 o.2)) →
      Est.result W.vec ⟨⟨.te, .discrete⟩, [dx, dy], none, p⟩ = discreteTEVec x y { srcHist := sh, destHist := dh, step := s } u o b false := by
    intro p hr ho
    have g_prop_time : Est.get ⟨⟨.te, .discrete⟩, [dx, dy], none, p⟩ "prop_time" PyVal.toOptArg = some u := by
      show (p "prop_time").bind _ = _
      rw [ho ("prop_time", .int 0) (by simp [optionalKw, ownKw, normalizeKw, commonKw, defaultNoise])]; exact h_prop_time
    have g_step_size : Est.get ⟨⟨.te, .discrete⟩, [dx, dy], none, p⟩ "step_size" PyVal.toArg = some s := by
      show (p "step_size").bind _ = _
      rw [ho ("step_size", .int 1) (by simp [optionalKw, ownKw, normalizeKw, commonKw, defaultNoise])]; exact h_step_size
    have g_src_hist_len : Est.get ⟨⟨.te, .discrete⟩, [dx, dy], none, p⟩ "src_hist_len" PyVal.toArg = some sh := by
      show (p "src_hist_len").bind _ = _
      rw [ho ("src_hist_len", .int 1) (by simp [optionalKw, ownKw, normalizeKw, commonKw, defaultNoise])]; exact h_src_hist_len
    have g_dest_hist_len : Est.get ⟨⟨.te, .discrete⟩, [dx, dy], none, p⟩ "dest_hist_len" PyVal.toArg = some dh := by
      show (p "dest_hist_len").bind _ = _
      rw [ho ("dest_hist_len", .int 1) (by simp [optionalKw, ownKw, normalizeKw, commonKw, defaultNoise])]; exact h_dest_hist_len
    have g_offset : Est.get ⟨⟨.te, .discrete⟩, [dx, dy], none, p⟩ "offset" PyVal.toOptArg = some o := by
      show (p "offset").bind _ = _
      rw [ho ("offset", .none) (by simp [optionalKw, ownKw, normalizeKw, commonKw, defaultNoise])]; exact h_offset
    have g_base : Est.get ⟨⟨.te, .discrete⟩, [dx, dy], none, p⟩ "base" PyVal.toBase = some b := by
      show (p "base").bind _ = _
      rw [ho ("base", W.b0) (by simp [optionalKw, ownKw, normalizeKw, commonKw, defaultNoise])]; exact h_base
    refine result_vec ?_
    simp (maxSteps := 2000000) only [Est.vecVal, Est.teVec, Option.bind_eq_bind, Option.bind_some, g_prop_time, g_step_size, g_src_hist_len, g_dest_hist_len, g_offset, g_base, hx, hy, Est.pair, Est.te]
  obtain ⟨p, e, hr, ho⟩ := im_te_eval W.vec a cond kw dx dy ha hc (by simp [requiredKw]) h4
  rw [e, hv p hr ho]

theorem e2e_vte_millerMadow {W : World} {dx dy : PyData} {a : PyName} {kw : Kw} {cond : CondKw PyData} (hc : cond.isVal = false) (ha : Names W.lower .te a .millerMadow) 
    (h4 : Only ["prop_time", "step_size", "src_hist_len", "dest_hist_len", "cond_hist_len", "offset", "base", "seed"] kw)
    {u : Option PyArg} {s : PyArg} {sh : PyArg} {dh : PyArg} {o : Option PyArg} {b : Base} 
    (h_prop_time : (kwOr kw "prop_time" (.int 0)).toOptArg = some u)
    (h_step_size : (kwOr kw "step_size" (.int 1)).toArg = some s)
    (h_src_hist_len : (kwOr kw "src_hist_len" (.int 1)).toArg = some sh)
    (h_dest_hist_len : (kwOr kw "dest_hist_len" (.int 1)).toArg = some dh)
    (h_offset : (kwOr kw "offset" (.none)).toOptArg = some o)
    (h_base : (kwOr kw "base" (W.b0)).toBase = some b)
    {x y : List (List Int)} (hx : PyData.toIntRows dx = some x) (hy : PyData.toIntRows dy = some y) :
    imTE W.vec [dx, dy] a cond kw = discreteTEVec x y { srcHist := sh, destHist := dh, step := s } u o b true := by
  have hv : ∀ p : Kw, (∀ r ∈ requiredKw .te .millerMadow, p r = kw r) →
      (∀ o ∈ optionalKw W.b0 ⟨.te, .millerMadow⟩, p o.1 = some (kwOr kw o.1 o.2)) →
      Est.result W.vec ⟨⟨.te, .millerMadow⟩, [dx, dy], none, p⟩ = discreteTEVec x y { srcHist := sh, destHist := dh, step := s } u o b true := by
    intro p hr ho
    have g_prop_time : Est.get ⟨⟨.te, .millerMadow⟩, [dx, dy], none, p⟩ "prop_time" PyVal.toOptArg = some u := by
      show (p "prop_time").bind _ = _
      rw [ho ("prop_time", .int 0) (by simp [optionalKw, ownKw, normalizeKw, commonKw, defaultNoise])]; exact h_prop_time
    have g_step_size : Est.get ⟨⟨.te, .millerMadow⟩, [dx, dy], none, p⟩ "step_size" PyVal.toArg = some s := by
      show (p "step_size").bind _ = _
      rw [ho ("step_size", .int 1) (by simp [optionalKw, ownKw, normalizeKw, commonKw, defaultNoise])]; exact h_step_size
    have g_src_hist_len : Est.get ⟨⟨.te, .millerMadow⟩, [dx, dy], none, p⟩ "src_hist_len" PyVal.toArg = some sh := by
      show (p "src_hist_len").bind _ = _
      rw [ho ("src_hist_len", .int 1) (by simp [optionalKw, ownKw, normalizeKw, commonKw, defaultNoise])]; exact h_src_hist_len
    have g_dest_hist_len : Est.get ⟨⟨.te, .millerMadow⟩, [dx, dy], none, p⟩ "dest_hist_len" PyVal.toArg = some dh := by
      show (p "dest_hist_len").bind _ = _
      rw [ho ("dest_hist_len", .int 1) (by simp [optionalKw, ownKw, normalizeKw, commonKw, defaultNoise])]; exact h_dest_hist_len
    have g_offset : Est.get ⟨⟨.te, .millerMadow⟩, [dx, dy], none, p⟩ "offset" PyVal.toOptArg = some o := by
      show (p "offset").bind _ = _
      rw [ho ("offset", .none) (by simp [optionalKw, ownKw, normalizeKw, commonKw, defaultNoise])]; exact h_offset
    have g_base : Est.get ⟨⟨.te, .millerMadow⟩, [dx, dy], none, p⟩ "base" PyVal.toBase = some b := by
      show (p "base").bind _ = _
      rw [ho ("base", W.b0) (by simp [optionalKw, ownKw, normalizeKw, commonKw, defaultNoise])]; exact h_base
    refine result_vec ?_
    simp (maxSteps := 2000000) only [Est.vecVal, Est.teVec, Option.bind_eq_bind, Option.bind_some, g_prop_time, g_step_size, g_src_hist_len, g_dest_hist_len, g_offset, g_base, hx, hy, Est.pair, Est.te]
  obtain ⟨p, e, hr, ho⟩ := im_te_eval W.vec a cond kw dx dy ha hc (by simp [requiredKw]) h4
  rw [e, hv p hr ho]

theorem e2e_vte_grassberger {W : World} {dx dy : PyData} {a : PyName} {kw : Kw} {cond : CondKw PyData} (hc : cond.isVal = false) (ha : Names W.lower .te a .grassberger) 
    (h4 : Only ["prop_time", "step_size", "src_hist_len", "dest_hist_len", "cond_hist_len", "offset", "base", "seed"] kw)
    {u : Option PyArg} {s : PyArg} {sh : PyArg} {dh : PyArg} {o : Option PyArg} {b : Base} 
    (h_prop_time : (kwOr kw "prop_time" (.int 0)).toOptArg = some u)
    (h_step_size : (kwOr kw "step_size" (.int 1)).toArg = some s)
    (h_src_hist_len : (kwOr kw "src_hist_len" (.int 1)).toArg = some sh)
    (h_dest_hist_len : (kwOr kw "dest_hist_len" (.int 1)).toArg = some dh)
    (h_offset : (kwOr kw "offset" (.none)).toOptArg = some o)
    (h_base : (kwOr kw "base" (W.b0)).toBase = some b)
    {x y : List (List Int)} (hx : PyData.toIntRows dx = some x) (hy : PyData.toIntRows dy = some y) :
    imTE W.vec [dx, dy] a cond kw = biasTEVec .grassberger x y { srcHist := sh, destHist := dh, step := s } u o b := by
  have hv : ∀ p : Kw, (∀ r ∈ requiredKw .te .grassberger, p r = kw r) →
      (∀ o ∈ optionalKw W.b0 ⟨.te, .grassberger⟩, p o.1 = some (kwOr kw o.1 o.2)) →
      Est.result W.vec ⟨⟨.te, .grassberger⟩, [dx, dy], none, p⟩ = biasTEVec .grassberger x y { srcHist := sh, destHist := dh, step := s } u o b := by
    intro p hr ho
    have g_prop_time : Est.get ⟨⟨.te, .grassberger⟩, [dx, dy], none, p⟩ "prop_time" PyVal.toOptArg = some u := by
      show (p "prop_time").bind _ = _
      rw [ho ("prop_time", .int 0) (by simp [optionalKw, ownKw, normalizeKw, commonKw, defaultNoise])]; exact h_prop_time
    have g_step_size : Est.get ⟨⟨.te, .grassberger⟩, [dx, dy], none, p⟩ "step_size" PyVal.toArg = some s := by
      show (p "step_size").bind _ = _
      rw [ho ("step_size", .int 1) (by simp [optionalKw, ownKw, normalizeKw, commonKw, defaultNoise])]; exact h_step_size
    have g_src_hist_len : Est.get ⟨⟨.te, .grassberger⟩, [dx, dy], none, p⟩ "src_hist_len" PyVal.toArg = some sh := by
      show (p "src_hist_len").bind _ = _
      rw [ho ("src_hist_len", .int 1) (by simp [optionalKw, ownKw, normalizeKw, commonKw, defaultNoise])]; exact h_src_hist_len
    have g_dest_hist_len : Est.get ⟨⟨.te, .grassberger⟩, [dx, dy], none, p⟩ "dest_hist_len" PyVal.toArg = some dh := by
      show (p "dest_hist_len").bind _ = _
      rw [ho ("dest_hist_len", .int 1) (by simp [optionalKw, ownKw, normalizeKw, commonKw, defaultNoise])]; exact h_dest_hist_len
    have g_offset : Est.get ⟨⟨.te, .grassberger⟩, [dx, dy], none, p⟩ "offset" PyVal.toOptArg = some o := by
      show (p "offset").bind _ = _
      rw [ho ("offset", .none) (by simp [optionalKw, ownKw, normalizeKw, commonKw, defaultNoise])]; exact h_offset
    have g_base : Est.get ⟨⟨.te, .grassberger⟩, [dx, dy], none, p⟩ "base" PyVal.toBase = some b := by
      show (p "base").bind _ = _
      rw [ho ("base", W.b0) (by simp [optionalKw, ownKw, normalizeKw, commonKw, defaultNoise])]; exact h_base
    refine result_vec ?_
    simp (maxSteps := 2000000) only [Est.vecVal, Est.teVec, Option.bind_eq_bind, Option.bind_some, g_prop_time, g_step_size, g_src_hist_len, g_dest_hist_len, g_offset, g_base, hx, hy, Est.pair, Est.te, Est.bclass]
  obtain ⟨p, e, hr, ho⟩ := im_te_eval W.vec a cond kw dx dy ha hc (by simp [requiredKw]) h4
  rw [e, hv p hr ho]

theorem e2e_vte_chaoShen {W : World} {dx dy : PyData} {a : PyName} {kw : Kw} {cond : CondKw PyData} (hc : cond.isVal = false) (ha : Names W.lower .te a .chaoShen) 
    (h4 : Only ["prop_time", "step_size", "src_hist_len", "dest_hist_len", "cond_hist_len", "offset", "base", "seed"] kw)
    {u : Option PyArg} {s : PyArg} {sh : PyArg} {dh : PyArg} {o : Option PyArg} {b : Base} 
    (h_prop_time : (kwOr kw "prop_time" (.int 0)).toOptArg = some u)
    (h_step_size : (kwOr kw "step_size" (.int 1)).toArg = some s)
    (h_src_hist_len : (kwOr kw "src_hist_len" (.int 1)).toArg = some sh)
    (h_dest_hist_len : (kwOr kw "dest_hist_len" (.int 1)).toArg = some dh)
    (h_offset : (kwOr kw "offset" (.none)).toOptArg = some o)
    (h_base : (kwOr kw "base" (W.b0)).toBase = some b)
    {x y : List (List Int)} (hx : PyData.toIntRows dx = some x) (hy : PyData.toIntRows dy = some y) :
    imTE W.vec [dx, dy] a cond kw = biasTEVec .chaoShen x y { srcHist := sh, destHist := dh, step := s } u o b := by
  have hv : ∀ p : Kw, (∀ r ∈ requiredKw .te .chaoShen, p r = kw r) →
      (∀ o ∈ optionalKw W.b0 ⟨.te, .chaoShen⟩, p o.1 = some (kwOr kw o.1 o.2)) →
      Est.result W.vec ⟨⟨.te, .chaoShen⟩, [dx, dy], none, p⟩ = biasTEVec .chaoShen x y { srcHist := sh, destHist := dh, step := s } u o b := by
    intro p hr ho
    have g_prop_time : Est.get ⟨⟨.te, .chaoShen⟩, [dx, dy], none, p⟩ "prop_time" PyVal.toOptArg = some u := by
      show (p "prop_time").bind _ = _
      rw [ho ("prop_time", .int 0) (by simp [optionalKw, ownKw, normalizeKw, commonKw, defaultNoise])]; exact h_prop_time
    have g_step_size : Est.get ⟨⟨.te, .chaoShen⟩, [dx, dy], none, p⟩ "step_size" PyVal.toArg = some s := by
      show (p "step_size").bind _ = _
      rw [ho ("step_size", .int 1) (by simp [optionalKw, ownKw, normalizeKw, commonKw, defaultNoise])]; exact h_step_size
    have g_src_hist_len : Est.get ⟨⟨.te, .chaoShen⟩, [dx, dy], none, p⟩ "src_hist_len" PyVal.toArg = some sh := by
      show (p "src_hist_len").bind _ = _
      rw [ho ("src_hist_len", .int 1) (by simp [optionalKw, ownKw, normalizeKw, commonKw, defaultNoise])]; exact h_src_hist_len
    have g_dest_hist_len : Est.get ⟨⟨.te, .chaoShen⟩, [dx, dy], none, p⟩ "dest_hist_len" PyVal.toArg = some dh := by
      show (p "dest_hist_len").bind _ = _
      rw [ho ("dest_hist_len", .int 1) (by simp [optionalKw, ownKw, normalizeKw, commonKw, defaultNoise])]; exact h_dest_hist_len
    have g_offset : Est.get ⟨⟨.te, .chaoShen⟩, [dx, dy], none, p⟩ "offset" PyVal.toOptArg = some o := by
      show (p "offset").bind _ = _
      rw [ho ("offset", .none) (by simp [optionalKw, ownKw, normalizeKw, commonKw, defaultNoise])]; exact h_offset
    have g_base : Est.get ⟨⟨.te, .chaoShen⟩, [dx, dy], none, p⟩ "base" PyVal.toBase = some b := by
      show (p "base").bind _ = _
      rw [ho ("base", W.b0) (by simp [optionalKw, ownKw, normalizeKw, commonKw, defaultNoise])]; exact h_base
    refine result_vec ?_
    simp (maxSteps := 2000000) only [Est.vecVal, Est.teVec, Option.bind_eq_bind, Option.bind_some, g_prop_time, g_step_size, g_src_hist_len, g_dest_hist_len, g_offset, g_base, hx, hy, Est.pair, Est.te, Est.bclass]
  obtain ⟨p, e, hr, ho⟩ := im_te_eval W.vec a cond kw dx dy ha hc (by simp [requiredKw]) h4
  rw [e, hv p hr ho]

theorem e2e_vte_chaoWangJost {W : World} {dx dy : PyData} {a : PyName} {kw : Kw} {cond : CondKw PyData} (hc : cond.isVal = false) (ha : Names W.lower .te a .chaoWangJost) 
    (h4 : Only ["prop_time", "step_size", "src_hist_len", "dest_hist_len", "cond_hist_len", "offset", "base", "seed"] kw)
    {u : Option PyArg} {s : PyArg} {sh : PyArg} {dh : PyArg} {o : Option PyArg} {b : Base} 
    (h_prop_time : (kwOr kw "prop_time" (.int 0)).toOptArg = some u)
    (h_step_size : (kwOr kw "step_size" (.int 1)).toArg = some s)
    (h_src_hist_len : (kwOr kw "src_hist_len" (.int 1)).toArg = some sh)
    (h_dest_hist_len : (kwOr kw "dest_hist_len" (.int 1)).toArg = some dh)
    (h_offset : (kwOr kw "offset" (.none)).toOptArg = some o)
    (h_base : (kwOr kw "base" (W.b0)).toBase = some b)
    {x y : List (List Int)} (hx : PyData.toIntRows dx = some x) (hy : PyData.toIntRows dy = some y) :
    imTE W.vec [dx, dy] a cond kw = biasTEVec .chaoWangJost x y { srcHist := sh, destHist := dh, step := s } u o b := by
  have hv : ∀ p : Kw, (∀ r ∈ requiredKw .te .chaoWangJost, p r = kw r) →
      (∀ o ∈ optionalKw W.b0 ⟨.te, .chaoWangJost⟩, p o.1 = some (kwOr kw o.1 o.2)) →
      Est.result W.vec ⟨⟨.te, .chaoWangJost⟩, [dx, dy], none, p⟩ = biasTEVec .chaoWangJost x y { srcHist := sh, destHist := dh, step := s } u o b := by
    intro p hr ho
    have g_prop_time : Est.get ⟨⟨.te, .chaoWangJost⟩, [dx, dy], none, p⟩ "prop_time" PyVal.toOptArg = some u := by
      show (p "prop_time").bind _ = _
      rw [ho ("prop_time", .int 0) (by simp [optionalKw, ownKw, normalizeKw, commonKw, defaultNoise])]; exact h_prop_time
    have g_step_size : Est.get ⟨⟨.te, .chaoWangJost⟩, [dx, dy], none, p⟩ "step_size" PyVal.toArg = some s := by
      show (p "step_size").bind _ = _
      rw [ho ("step_size", .int 1) (by simp [optionalKw, ownKw, normalizeKw, commonKw, defaultNoise])]; exact h_step_size
    have g_src_hist_len : Est.get ⟨⟨.te, .chaoWangJost⟩, [dx, dy], none, p⟩ "src_hist_len" PyVal.toArg = some sh := by
      show (p "src_hist_len").bind _ = _
      rw [ho ("src_hist_len", .int 1) (by simp [optionalKw, ownKw, normalizeKw, commonKw, defaultNoise])]; exact h_src_hist_len
    have g_dest_hist_len : Est.get ⟨⟨.te, .chaoWangJost⟩, [dx, dy], none, p⟩ "dest_hist_len" PyVal.toArg = some dh := by
      show (p "dest_hist_len").bind _ = _
      rw [ho ("dest_hist_len", .int 1) (by simp [optionalKw, ownKw, normalizeKw, commonKw, defaultNoise])]; exact h_dest_hist_len
    have g_offset : Est.get ⟨⟨.te, .chaoWangJost⟩, [dx, dy], none, p⟩ "offset" PyVal.toOptArg = some o := by
      show (p "offset").bind _ = _
      rw [ho ("offset", .none) (by simp [optionalKw, ownKw, normalizeKw, commonKw, defaultNoise])]; exact h_offset
    have g_base : Est.get ⟨⟨.te, .chaoWangJost⟩, [dx, dy], none, p⟩ "base" PyVal.toBase = some b := by
      show (p "base").bind _ = _
      rw [ho ("base", W.b0) (by simp [optionalKw, ownKw, normalizeKw, commonKw, defaultNoise])]; exact h_base
    refine result_vec ?_
    simp (maxSteps := 2000000) only [Est.vecVal, Est.teVec, Option.bind_eq_bind, Option.bind_some, g_prop_time, g_step_size, g_src_hist_len, g_dest_hist_len, g_offset, g_base, hx, hy, Est.pair, Est.te, Est.bclass]
  obtain ⟨p, e, hr, ho⟩ := im_te_eval W.vec a cond kw dx dy ha hc (by simp [requiredKw]) h4
  rw [e, hv p hr ho]

theorem e2e_vte_shrink {W : World} {dx dy : PyData} {a : PyName} {kw : Kw} {cond : CondKw PyData} (hc : cond.isVal = false) (ha : Names W.lower .te a .shrink) 
    (h4 : Only ["prop_time", "step_size", "src_hist_len", "dest_hist_len", "cond_hist_len", "offset", "base", "seed"] kw)
    {u : Option PyArg} {s : PyArg} {sh : PyArg} {dh : PyArg} {o : Option PyArg} {b : Base} 
    (h_prop_time : (kwOr kw "prop_time" (.int 0)).toOptArg = some u)
    (h_step_size : (kwOr kw "step_size" (.int 1)).toArg = some s)
    (h_src_hist_len : (kwOr kw "src_hist_len" (.int 1)).toArg = some sh)
    (h_dest_hist_len : (kwOr kw "dest_hist_len" (.int 1)).toArg = some dh)
    (h_offset : (kwOr kw "offset" (.none)).toOptArg = some o)
    (h_base : (kwOr kw "base" (W.b0)).toBase = some b)
    {x y : List (List Int)} (hx : PyData.toIntRows dx = some x) (hy : PyData.toIntRows dy = some y) :
    imTE W.vec [dx, dy] a cond kw = biasTEVec .shrink x y { srcHist := sh, destHist := dh, step := s } u o b := by
  have hv : ∀ p : Kw, (∀ r ∈ requiredKw .te .shrink, p r = kw r) →
      (∀ o ∈ optionalKw W.b0 ⟨.te, .shrink⟩, p o.1 = some (kwOr kw o.1 o.2)) →
      Est.result W.vec ⟨⟨.te, .shrink⟩, [dx, dy], none, p⟩ = biasTEVec .shrink x y { srcHist := sh, destHist := dh, step := s } u o b := by
    intro p hr ho
    have g_prop_time : Est.get ⟨⟨.te, .shrink⟩, [dx, dy], none, p⟩ "prop_time" PyVal.toOptArg = some u := by
      show (p "prop_time").bind _ = _
      rw [ho ("prop_time", .int 0) (by simp [optionalKw, ownKw, normalizeKw, commonKw, defaultNoise])]; exact h_prop_time
    have g_step_size : Est.get ⟨⟨.te, .shrink⟩, [dx, dy], none, p⟩ "step_size" PyVal.toArg = some s := by
      show (p "step_size").bind _ = _
      rw [ho ("step_size", .int 1) (by simp [optionalKw, ownKw, normalizeKw, commonKw, defaultNoise])]; exact h_step_size
    have g_src_hist_len : Est.get ⟨⟨.te, .shrink⟩, [dx, dy], none, p⟩ "src_hist_len" PyVal.toArg = some sh := by
      show (p "src_hist_len").bind _ = _
      rw [ho ("src_hist_len", .int 1) (by simp [optionalKw, ownKw, normalizeKw, commonKw, defaultNoise])]; exact h_src_hist_len
    have g_dest_hist_len : Est.get ⟨⟨.te, .shrink⟩, [dx, dy], none, p⟩ "dest_hist_len" PyVal.toArg = some dh := by
      show (p "dest_hist_len").bind _ = _
      rw [ho ("dest_hist_len", .int 1) (by simp [optionalKw, ownKw, normalizeKw, commonKw, defaultNoise])]; exact h_dest_hist_len
    have g_offset : Est.get ⟨⟨.te, .shrink⟩, [dx, dy], none, p⟩ "offset" PyVal.toOptArg = some o := by
      show (p "offset").bind _ = _
      rw [ho ("offset", .none) (by simp [optionalKw, ownKw, normalizeKw, commonKw, defaultNoise])]; exact h_offset
    have g_base : Est.get ⟨⟨.te, .shrink⟩, [dx, dy], none, p⟩ "base" PyVal.toBase = some b := by
      show (p "base").bind _ = _
      rw [ho ("base", W.b0) (by simp [optionalKw, ownKw, normalizeKw, commonKw, defaultNoise])]; exact h_base
    refine result_vec ?_
    simp (maxSteps := 2000000) only [Est.vecVal, Est.teVec, Option.bind_eq_bind, Option.bind_some, g_prop_time, g_step_size, g_src_hist_len, g_dest_hist_len, g_offset, g_base, hx, hy, Est.pair, Est.te, Est.bclass]
  obtain ⟨p, e, hr, ho⟩ := im_te_eval W.vec a cond kw dx dy ha hc (by simp [requiredKw]) h4
  rw [e, hv p hr ho]

theorem e2e_vte_zhang {W : World} {dx dy : PyData} {a : PyName} {kw : Kw} {cond : CondKw PyData} (hc : cond.isVal = false) (ha : Names W.lower .te a .zhang) 
    (h4 : Only ["prop_time", "step_size", "src_hist_len", "dest_hist_len", "cond_hist_len", "offset", "base", "seed"] kw)
    {u : Option PyArg} {s : PyArg} {sh : PyArg} {dh : PyArg} {o : Option PyArg} {b : Base} 
    (h_prop_time : (kwOr kw "prop_time" (.int 0)).toOptArg = some u)
    (h_step_size : (kwOr kw "step_size" (.int 1)).toArg = some s)
    (h_src_hist_len : (kwOr kw "src_hist_len" (.int 1)).toArg = some sh)
    (h_dest_hist_len : (kwOr kw "dest_hist_len" (.int 1)).toArg = some dh)
    (h_offset : (kwOr kw "offset" (.none)).toOptArg = some o)
    (h_base : (kwOr kw "base" (W.b0)).toBase = some b)
    {x y : List (List Int)} (hx : PyData.toIntRows dx = some x) (hy : PyData.toIntRows dy = some y) :
    imTE W.vec [dx, dy] a cond kw = biasTEVec .zhang x y { srcHist := sh, destHist := dh, step := s } u o b := by
  have hv : ∀ p : Kw, (∀ r ∈ requiredKw .te .zhang, p r = kw r) →
      (∀ o ∈ optionalKw W.b0 ⟨.te, .zhang⟩, p o.1 = some (kwOr kw o.1 o.2)) →
      Est.result W.vec ⟨⟨.te, .zhang⟩, [dx, dy], none, p⟩ = biasTEVec .zhang x y { srcHist := sh, destHist := dh, step := s } u o b := by
    intro p hr ho
    have g_prop_time : Est.get ⟨⟨.te, .zhang⟩, [dx, dy], none, p⟩ "prop_time" PyVal.toOptArg = some u := by
      show (p "prop_time").bind _ = _
      rw [ho ("prop_time", .int 0) (by simp [optionalKw, ownKw, normalizeKw, commonKw, defaultNoise])]; exact h_prop_time
    have g_step_size : Est.get ⟨⟨.te, .zhang⟩, [dx, dy], none, p⟩ "step_size" PyVal.toArg = some s := by
      show (p "step_size").bind _ = _
      rw [ho ("step_size", .int 1) (by simp [optionalKw, ownKw, normalizeKw, commonKw, defaultNoise])]; exact h_step_size
    have g_src_hist_len : Est.get ⟨⟨.te, .zhang⟩, [dx, dy], none, p⟩ "src_hist_len" PyVal.toArg = some sh := by
      show (p "src_hist_len").bind _ = _
      rw [ho ("src_hist_len", .int 1) (by simp [optionalKw, ownKw, normalizeKw, commonKw, defaultNoise])]; exact h_src_hist_len
    have g_dest_hist_len : Est.get ⟨⟨.te, .zhang⟩, [dx, dy], none, p⟩ "dest_hist_len" PyVal.toArg = some dh := by
      show (p "dest_hist_len").bind _ = _
      rw [ho ("dest_hist_len", .int 1) (by simp [optionalKw, ownKw, normalizeKw, commonKw, defaultNoise])]; exact h_dest_hist_len
    have g_offset : Est.get ⟨⟨.te, .zhang⟩, [dx, dy], none, p⟩ "offset" PyVal.toOptArg = some o := by
      show (p "offset").bind _ = _
      rw [ho ("offset", .none) (by simp [optionalKw, ownKw, normalizeKw, commonKw, defaultNoise])]; exact h_offset
    have g_base : Est.get ⟨⟨.te, .zhang⟩, [dx, dy], none, p⟩ "base" PyVal.toBase = some b := by
      show (p "base").bind _ = _
      rw [ho ("base", W.b0) (by simp [optionalKw, ownKw, normalizeKw, commonKw, defaultNoise])]; exact h_base
    refine result_vec ?_
    simp (maxSteps := 2000000) only [Est.vecVal, Est.teVec, Option.bind_eq_bind, Option.bind_some, g_prop_time, g_step_size, g_src_hist_len, g_dest_hist_len, g_offset, g_base, hx, hy, Est.pair, Est.te, Est.bclass]
  obtain ⟨p, e, hr, ho⟩ := im_te_eval W.vec a cond kw dx dy ha hc (by simp [requiredKw]) h4
  rw [e, hv p hr ho]

theorem e2e_vte_bonachela {W : World} {dx dy : PyData} {a : PyName} {kw : Kw} {cond : CondKw PyData} (hc : cond.isVal = false) (ha : Names W.lower .te a .bonachela) 
    (h4 : Only ["prop_time", "step_size", "src_hist_len", "dest_hist_len", "cond_hist_len", "offset", "base", "seed"] kw)
    {u : Option PyArg} {s : PyArg} {sh : PyArg} {dh : PyArg} {o : Option PyArg} {b : Base} 
    (h_prop_time : (kwOr kw "prop_time" (.int 0)).toOptArg = some u)
    (h_step_size : (kwOr kw "step_size" (.int 1)).toArg = some s)
    (h_src_hist_len : (kwOr kw "src_hist_len" (.int 1)).toArg = some sh)
    (h_dest_hist_len : (kwOr kw "dest_hist_len" (.int 1)).toArg = some dh)
    (h_offset : (kwOr kw "offset" (.none)).toOptArg = some o)
    (h_base : (kwOr kw "base" (W.b0)).toBase = some b)
    {x y : List (List Int)} (hx : PyData.toIntRows dx = some x) (hy : PyData.toIntRows dy = some y) :
    imTE W.vec [dx, dy] a cond kw = biasTEVec .bonachela x y { srcHist := sh, destHist := dh, step := s } u o b := by
  have hv : ∀ p : Kw, (∀ r ∈ requiredKw .te .bonachela, p r = kw r) →
      (∀ o ∈ optionalKw W.b0 ⟨.te, .bonachela⟩, p o.1 = some (kwOr kw o.1 o.2)) →
      Est.result W.vec ⟨⟨.te, .bonachela⟩, [dx, dy], none, p⟩ = biasTEVec .bonachela x y { srcHist := sh, destHist := dh, step := s } u o b := by
    intro p hr ho
    have g_prop_time : Est.get ⟨⟨.te, .bonachela⟩, [dx, dy], none, p⟩ "prop_time" PyVal.toOptArg = some u := by
      show (p "prop_time").bind _ = _
      rw [ho ("prop_time", .int 0) (by simp [optionalKw, ownKw, normalizeKw, commonKw, defaultNoise])]; exact h_prop_time
    have g_step_size : Est.get ⟨⟨.te, .bonachela⟩, [dx, dy], none, p⟩ "step_size" PyVal.toArg = some s := by
      show (p "step_size").bind _ = _
      rw [ho ("step_size", .int 1) (by simp [optionalKw, ownKw, normalizeKw, commonKw, defaultNoise])]; exact h_step_size
    have g_src_hist_len : Est.get ⟨⟨.te, .bonachela⟩, [dx, dy], none, p⟩ "src_hist_len" PyVal.toArg = some sh := by
      show (p "src_hist_len").bind _ = _
      rw [ho ("src_hist_len", .int 1) (by simp [optionalKw, ownKw, normalizeKw, commonKw, defaultNoise])]; exact h_src_hist_len
    have g_dest_hist_len : Est.get ⟨⟨.te, .bonachela⟩, [dx, dy], none, p⟩ "dest_hist_len" PyVal.toArg = some dh := by
      show (p "dest_hist_len").bind _ = _
      rw [ho ("dest_hist_len", .int 1) (by simp [optionalKw, ownKw, normalizeKw, commonKw, defaultNoise])]; exact h_dest_hist_len
    have g_offset : Est.get ⟨⟨.te, .bonachela⟩, [dx, dy], none, p⟩ "offset" PyVal.toOptArg = some o := by
      show (p "offset").bind _ = _
      rw [ho ("offset", .none) (by simp [optionalKw, ownKw, normalizeKw, commonKw, defaultNoise])]; exact h_offset
    have g_base : Est.get ⟨⟨.te, .bonachela⟩, [dx, dy], none, p⟩ "base" PyVal.toBase = some b := by
      show (p "base").bind _ = _
      rw [ho ("base", W.b0) (by simp [optionalKw, ownKw, normalizeKw, commonKw, defaultNoise])]; exact h_base
    refine result_vec ?_
    simp (maxSteps := 2000000) only [Est.vecVal, Est.teVec, Option.bind_eq_bind, Option.bind_some, g_prop_time, g_step_size, g_src_hist_len, g_dest_hist_len, g_offset, g_base, hx, hy, Est.pair, Est.te, Est.bclass]
  obtain ⟨p, e, hr, ho⟩ := im_te_eval W.vec a cond kw dx dy ha hc (by simp [requiredKw]) h4
  rw [e, hv p hr ho]

theorem e2e_vte_bayes {W : World} {dx dy : PyData} {a : PyName} {kw : Kw} {cond : CondKw PyData} (hc : cond.isVal = false) (ha : Names W.lower .te a .bayes) 
    (h4 : Only ["alpha", "K", "prop_time", "step_size", "src_hist_len", "dest_hist_len", "cond_hist_len", "offset", "base", "seed"] kw)
    {al : AlphaArg} {K : Option PyArg} {u : Option PyArg} {s : PyArg} {sh : PyArg} {dh : PyArg} {o : Option PyArg} {b : Base} 
    (h_alpha : (kw "alpha").bind PyVal.toAlpha = some al)
    (h_K : (kwOr kw "K" (.none)).toOptArg = some K)
    (h_prop_time : (kwOr kw "prop_time" (.int 0)).toOptArg = some u)
    (h_step_size : (kwOr kw "step_size" (.int 1)).toArg = some s)
    (h_src_hist_len : (kwOr kw "src_hist_len" (.int 1)).toArg = some sh)
    (h_dest_hist_len : (kwOr kw "dest_hist_len" (.int 1)).toArg = some dh)
    (h_offset : (kwOr kw "offset" (.none)).toOptArg = some o)
    (h_base : (kwOr kw "base" (W.b0)).toBase = some b)
    {x y : List (List Int)} (hx : PyData.toIntRows dx = some x) (hy : PyData.toIntRows dy = some y) :
    imTE W.vec [dx, dy] a cond kw = biasTEVec (.bayes al K) x y { srcHist := sh, destHist := dh, step := s } u o b := by
  have hv : ∀ p : Kw, (∀ r ∈ requiredKw .te .bayes, p r = kw r) →
      (∀ o ∈ optionalKw W.b0 ⟨.te, .bayes⟩, p o.1 = some (kwOr kw o.1 o.2)) →
      Est.result W.vec ⟨⟨.te, .bayes⟩, [dx, dy], none, p⟩ = biasTEVec (.bayes al K) x y { srcHist := sh, destHist := dh, step := s } u o b := by
    intro p hr ho
    have g_alpha : Est.get ⟨⟨.te, .bayes⟩, [dx, dy], none, p⟩ "alpha" PyVal.toAlpha = some al := by
      show (p "alpha").bind _ = _
      rw [hr "alpha" (by simp [requiredKw])]; exact h_alpha
    have g_K : Est.get ⟨⟨.te, .bayes⟩, [dx, dy], none, p⟩ "K" PyVal.toOptArg = some K := by
      show (p "K").bind _ = _
      rw [ho ("K", .none) (by simp [optionalKw, ownKw, normalizeKw, commonKw, defaultNoise])]; exact h_K
    have g_prop_time : Est.get ⟨⟨.te, .bayes⟩, [dx, dy], none, p⟩ "prop_time" PyVal.toOptArg = some u := by
      show (p "prop_time").bind _ = _
      rw [ho ("prop_time", .int 0) (by simp [optionalKw, ownKw, normalizeKw, commonKw, defaultNoise])]; exact h_prop_time
    have g_step_size : Est.get ⟨⟨.te, .bayes⟩, [dx, dy], none, p⟩ "step_size" PyVal.toArg = some s := by
      show (p "step_size").bind _ = _
      rw [ho ("step_size", .int 1) (by simp [optionalKw, ownKw, normalizeKw, commonKw, defaultNoise])]; exact h_step_size
    have g_src_hist_len : Est.get ⟨⟨.te, .bayes⟩, [dx, dy], none, p⟩ "src_hist_len" PyVal.toArg = some sh := by
      show (p "src_hist_len").bind _ = _
      rw [ho ("src_hist_len", .int 1) (by simp [optionalKw, ownKw, normalizeKw, commonKw, defaultNoise])]; exact h_src_hist_len
    have g_dest_hist_len : Est.get ⟨⟨.te, .bayes⟩, [dx, dy], none, p⟩ "dest_hist_len" PyVal.toArg = some dh := by
      show (p "dest_hist_len").bind _ = _
      rw [ho ("dest_hist_len", .int 1) (by simp [optionalKw, ownKw, normalizeKw, commonKw, defaultNoise])]; exact h_dest_hist_len
    have g_offset : Est.get ⟨⟨.te, .bayes⟩, [dx, dy], none, p⟩ "offset" PyVal.toOptArg = some o := by
      show (p "offset").bind _ = _
      rw [ho ("offset", .none) (by simp [optionalKw, ownKw, normalizeKw, commonKw, defaultNoise])]; exact h_offset
    have g_base : Est.get ⟨⟨.te, .bayes⟩, [dx, dy], none, p⟩ "base" PyVal.toBase = some b := by
      show (p "base").bind _ = _
      rw [ho ("base", W.b0) (by simp [optionalKw, ownKw, normalizeKw, commonKw, defaultNoise])]; exact h_base
    refine result_vec ?_
    simp (maxSteps := 2000000) only [Est.vecVal, Est.teVec, Option.bind_eq_bind, Option.bind_some, g_alpha, g_K, g_prop_time, g_step_size, g_src_hist_len, g_dest_hist_len, g_offset, g_base, hx, hy, Est.pair, Est.te, Est.bclass]
  obtain ⟨p, e, hr, ho⟩ := im_te_eval W.vec a cond kw dx dy ha hc (by
    intro r hr
    simp only [requiredKw, List.mem_cons, List.not_mem_nil, or_false] at hr
    rcases hr with rfl
    · intro hn; rw [hn] at h_alpha; simp at h_alpha) h4
  rw [e, hv p hr ho]

theorem e2e_vte_ansb {W : World} {dx dy : PyData} {a : PyName} {kw : Kw} {cond : CondKw PyData} (hc : cond.isVal = false) (ha : Names W.lower .te a .ansb) 
    (h4 : Only ["undersampled", "prop_time", "step_size", "src_hist_len", "dest_hist_len", "cond_hist_len", "offset", "base", "seed"] kw)
    {us : ℝ} {u : Option PyArg} {s : PyArg} {sh : PyArg} {dh : PyArg} {o : Option PyArg} {b : Base} 
    (h_undersampled : (kwOr kw "undersampled" (.num (1 / 10))).toNum = some us)
    (h_prop_time : (kwOr kw "prop_time" (.int 0)).toOptArg = some u)
    (h_step_size : (kwOr kw "step_size" (.int 1)).toArg = some s)
    (h_src_hist_len : (kwOr kw "src_hist_len" (.int 1)).toArg = some sh)
    (h_dest_hist_len : (kwOr kw "dest_hist_len" (.int 1)).toArg = some dh)
    (h_offset : (kwOr kw "offset" (.none)).toOptArg = some o)
    (h_base : (kwOr kw "base" (W.b0)).toBase = some b)
    {x y : List (List Int)} (hx : PyData.toIntRows dx = some x) (hy : PyData.toIntRows dy = some y) :
    imTE W.vec [dx, dy] a cond kw = biasTEVec (.ansb us) x y { srcHist := sh, destHist := dh, step := s } u o b := by
  have hv : ∀ p : Kw, (∀ r ∈ requiredKw .te .ansb, p r = kw r) →
      (∀ o ∈ optionalKw W.b0 ⟨.te, .ansb⟩, p o.1 = some (kwOr kw o.1 o.2)) →
      Est.result W.vec ⟨⟨.te, .ansb⟩, [dx, dy], none, p⟩ = biasTEVec (.ansb us) x y { srcHist := sh, destHist := dh, step := s } u o b := by
    intro p hr ho
    have g_undersampled : Est.get ⟨⟨.te, .ansb⟩, [dx, dy], none, p⟩ "undersampled" PyVal.toNum = some us := by
      show (p "undersampled").bind _ = _
      rw [ho ("undersampled", .num (1 / 10)) (by simp [optionalKw, ownKw, normalizeKw, commonKw, defaultNoise])]; exact h_undersampled
    have g_prop_time : Est.get ⟨⟨.te, .ansb⟩, [dx, dy], none, p⟩ "prop_time" PyVal.toOptArg = some u := by
      show (p "prop_time").bind _ = _
      rw [ho ("prop_time", .int 0) (by simp [optionalKw, ownKw, normalizeKw, commonKw, defaultNoise])]; exact h_prop_time
    have g_step_size : Est.get ⟨⟨.te, .ansb⟩, [dx, dy], none, p⟩ "step_size" PyVal.toArg = some s := by
      show (p "step_size").bind _ = _
      rw [ho ("step_size", .int 1) (by simp [optionalKw, ownKw, normalizeKw, commonKw, defaultNoise])]; exact h_step_size
    have g_src_hist_len : Est.get ⟨⟨.te, .ansb⟩, [dx, dy], none, p⟩ "src_hist_len" PyVal.toArg = some sh := by
      show (p "src_hist_len").bind _ = _
      rw [ho ("src_hist_len", .int 1) (by simp [optionalKw, ownKw, normalizeKw, commonKw, defaultNoise])]; exact h_src_hist_len
    have g_dest_hist_len : Est.get ⟨⟨.te, .ansb⟩, [dx, dy], none, p⟩ "dest_hist_len" PyVal.toArg = some dh := by
      show (p "dest_hist_len").bind _ = _
      rw [ho ("dest_hist_len", .int 1) (by simp [optionalKw, ownKw, normalizeKw, commonKw, defaultNoise])]; exact h_dest_hist_len
    have g_offset : Est.get ⟨⟨.te, .ansb⟩, [dx, dy], none, p⟩ "offset" PyVal.toOptArg = some o := by
      show (p "offset").bind _ = _
      rw [ho ("offset", .none) (by simp [optionalKw, ownKw, normalizeKw, commonKw, defaultNoise])]; exact h_offset
    have g_base : Est.get ⟨⟨.te, .ansb⟩, [dx, dy], none, p⟩ "base" PyVal.toBase = some b := by
      show (p "base").bind _ = _
      rw [ho ("base", W.b0) (by simp [optionalKw, ownKw, normalizeKw, commonKw, defaultNoise])]; exact h_base
    refine result_vec ?_
    simp (maxSteps := 2000000) only [Est.vecVal, Est.teVec, Option.bind_eq_bind, Option.bind_some, g_undersampled, g_prop_time, g_step_size, g_src_hist_len, g_dest_hist_len, g_offset, g_base, hx, hy, Est.pair, Est.te, Est.bclass]
  obtain ⟨p, e, hr, ho⟩ := im_te_eval W.vec a cond kw dx dy ha hc (by simp [requiredKw]) h4
  rw [e, hv p hr ho]

theorem e2e_vte_nsb {W : World} {dx dy : PyData} {a : PyName} {kw : Kw} {cond : CondKw PyData} (hc : cond.isVal = false) (ha : Names W.lower .te a .nsb) 
    (h4 : Only ["K", "prop_time", "step_size", "src_hist_len", "dest_hist_len", "cond_hist_len", "offset", "base", "seed"] kw)
    {K : Option PyArg} {u : Option PyArg} {s : PyArg} {sh : PyArg} {dh : PyArg} {o : Option PyArg} {b : Base} 
    (h_K : (kwOr kw "K" (.none)).toOptArg = some K)
    (h_prop_time : (kwOr kw "prop_time" (.int 0)).toOptArg = some u)
    (h_step_size : (kwOr kw "step_size" (.int 1)).toArg = some s)
    (h_src_hist_len : (kwOr kw "src_hist_len" (.int 1)).toArg = some sh)
    (h_dest_hist_len : (kwOr kw "dest_hist_len" (.int 1)).toArg = some dh)
    (h_offset : (kwOr kw "offset" (.none)).toOptArg = some o)
    (h_base : (kwOr kw "base" (W.b0)).toBase = some b)
    {x y : List (List Int)} (hx : PyData.toIntRows dx = some x) (hy : PyData.toIntRows dy = some y) :
    imTE W.vec [dx, dy] a cond kw = nsbTEVec W.find K x y { srcHist := sh, destHist := dh, step := s } u o b := by
  have hv : ∀ p : Kw, (∀ r ∈ requiredKw .te .nsb, p r = kw r) →
      (∀ o ∈ optionalKw W.b0 ⟨.te, .nsb⟩, p o.1 = some (kwOr kw o.1 o.2)) →
      Est.result W.vec ⟨⟨.te, .nsb⟩, [dx, dy], none, p⟩ = nsbTEVec W.find K x y { srcHist := sh, destHist := dh, step := s } u o b := by
    intro p hr ho
    have g_K : Est.get ⟨⟨.te, .nsb⟩, [dx, dy], none, p⟩ "K" PyVal.toOptArg = some K := by
      show (p "K").bind _ = _
      rw [ho ("K", .none) (by simp [optionalKw, ownKw, normalizeKw, commonKw, defaultNoise])]; exact h_K
    have g_prop_time : Est.get ⟨⟨.te, .nsb⟩, [dx, dy], none, p⟩ "prop_time" PyVal.toOptArg = some u := by
      show (p "prop_time").bind _ = _
      rw [ho ("prop_time", .int 0) (by simp [optionalKw, ownKw, normalizeKw, commonKw, defaultNoise])]; exact h_prop_time
    have g_step_size : Est.get ⟨⟨.te, .nsb⟩, [dx, dy], none, p⟩ "step_size" PyVal.toArg = some s := by
      show (p "step_size").bind _ = _
      rw [ho ("step_size", .int 1) (by simp [optionalKw, ownKw, normalizeKw, commonKw, defaultNoise])]; exact h_step_size
    have g_src_hist_len : Est.get ⟨⟨.te, .nsb⟩, [dx, dy], none, p⟩ "src_hist_len" PyVal.toArg = some sh := by
      show (p "src_hist_len").bind _ = _
      rw [ho ("src_hist_len", .int 1) (by simp [optionalKw, ownKw, normalizeKw, commonKw, defaultNoise])]; exact h_src_hist_len
    have g_dest_hist_len : Est.get ⟨⟨.te, .nsb⟩, [dx, dy], none, p⟩ "dest_hist_len" PyVal.toArg = some dh := by
      show (p "dest_hist_len").bind _ = _
      rw [ho ("dest_hist_len", .int 1) (by simp [optionalKw, ownKw, normalizeKw, commonKw, defaultNoise])]; exact h_dest_hist_len
    have g_offset : Est.get ⟨⟨.te, .nsb⟩, [dx, dy], none, p⟩ "offset" PyVal.toOptArg = some o := by
      show (p "offset").bind _ = _
      rw [ho ("offset", .none) (by simp [optionalKw, ownKw, normalizeKw, commonKw, defaultNoise])]; exact h_offset
    have g_base : Est.get ⟨⟨.te, .nsb⟩, [dx, dy], none, p⟩ "base" PyVal.toBase = some b := by
      show (p "base").bind _ = _
      rw [ho ("base", W.b0) (by simp [optionalKw, ownKw, normalizeKw, commonKw, defaultNoise])]; exact h_base
    refine result_vec ?_
    simp (maxSteps := 2000000) only [Est.vecVal, Est.teVec, Option.bind_eq_bind, Option.bind_some, g_K, g_prop_time, g_step_size, g_src_hist_len, g_dest_hist_len, g_offset, g_base, hx, hy, Est.pair, Est.te]
  obtain ⟨p, e, hr, ho⟩ := im_te_eval W.vec a cond kw dx dy ha hc (by simp [requiredKw]) h4
  rw [e, hv p hr ho]

theorem e2e_vte_kernel {W : World} {dx dy : PyData} {a : PyName} {kw : Kw} {cond : CondKw PyData} (hc : cond.isVal = false) (ha : Names W.lower .te a .kernel) 
    (h4 : Only ["bandwidth", "kernel", "workers", "prop_time", "step_size", "src_hist_len", "dest_hist_len", "cond_hist_len", "offset", "base", "seed"] kw)
    {h : PyArg} {kn : Kernel} {w : Int} {u : Option PyArg} {s : PyArg} {sh : PyArg} {dh : PyArg} {o : Option PyArg} {b : Base} 
    (h_bandwidth : (kwOr kw "bandwidth" (.none)).toArg = some h)
    (h_kernel : PyVal.toKernel W.eig (kwOr kw "kernel" (.none)) = some kn)
    (h_workers : (kwOr kw "workers" (.int 1)).toInt = some w)
    (h_prop_time : (kwOr kw "prop_time" (.int 0)).toOptArg = some u)
    (h_step_size : (kwOr kw "step_size" (.int 1)).toArg = some s)
    (h_src_hist_len : (kwOr kw "src_hist_len" (.int 1)).toArg = some sh)
    (h_dest_hist_len : (kwOr kw "dest_hist_len" (.int 1)).toArg = some dh)
    (h_offset : (kwOr kw "offset" (.none)).toOptArg = some o)
    (h_base : (kwOr kw "base" (W.b0)).toBase = some b)
    {x y : List (List ℝ)} (hx : PyData.toRows dx = some x) (hy : PyData.toRows dy = some y) :
    imTE W.vec [dx, dy] a cond kw = kernelTEVec x y { srcHist := sh, destHist := dh, step := s } u o { bandwidth := h, kernel := kn, workers := resolveWorkers W.cpu w } b := by
  have hv : ∀ p : Kw, (∀ r ∈ requiredKw .te .kernel, p r = kw r) →
      (∀ o ∈ optionalKw W.b0 ⟨.te, .kernel⟩, p o.1 = some (kwOr kw o.1 o.2)) →
      Est.result W.vec ⟨⟨.te, .kernel⟩, [dx, dy], none, p⟩ = kernelTEVec x y { srcHist := sh, destHist := dh, step := s } u o { bandwidth := h, kernel := kn, workers := resolveWorkers W.cpu w } b := by
    intro p hr ho
    have g_bandwidth : Est.get ⟨⟨.te, .kernel⟩, [dx, dy], none, p⟩ "bandwidth" PyVal.toArg = some h := by
      show (p "bandwidth").bind _ = _
      rw [ho ("bandwidth", .none) (by simp [optionalKw, ownKw, normalizeKw, commonKw, defaultNoise])]; exact h_bandwidth
    have g_kernel : Est.get ⟨⟨.te, .kernel⟩, [dx, dy], none, p⟩ "kernel" (PyVal.toKernel W.eig) = some kn := by
      show (p "kernel").bind _ = _
      rw [ho ("kernel", .none) (by simp [optionalKw, ownKw, normalizeKw, commonKw, defaultNoise])]; exact h_kernel
    have g_workers : Est.get ⟨⟨.te, .kernel⟩, [dx, dy], none, p⟩ "workers" PyVal.toInt = some w := by
      show (p "workers").bind _ = _
      rw [ho ("workers", .int 1) (by simp [optionalKw, ownKw, normalizeKw, commonKw, defaultNoise])]; exact h_workers
    have g_prop_time : Est.get ⟨⟨.te, .kernel⟩, [dx, dy], none, p⟩ "prop_time" PyVal.toOptArg = some u := by
      show (p "prop_time").bind _ = _
      rw [ho ("prop_time", .int 0) (by simp [optionalKw, ownKw, normalizeKw, commonKw, defaultNoise])]; exact h_prop_time
    have g_step_size : Est.get ⟨⟨.te, .kernel⟩, [dx, dy], none, p⟩ "step_size" PyVal.toArg = some s := by
      show (p "step_size").bind _ = _
      rw [ho ("step_size", .int 1) (by simp [optionalKw, ownKw, normalizeKw, commonKw, defaultNoise])]; exact h_step_size
    have g_src_hist_len : Est.get ⟨⟨.te, .kernel⟩, [dx, dy], none, p⟩ "src_hist_len" PyVal.toArg = some sh := by
      show (p "src_hist_len").bind _ = _
      rw [ho ("src_hist_len", .int 1) (by simp [optionalKw, ownKw, normalizeKw, commonKw, defaultNoise])]; exact h_src_hist_len
    have g_dest_hist_len : Est.get ⟨⟨.te, .kernel⟩, [dx, dy], none, p⟩ "dest_hist_len" PyVal.toArg = some dh := by
      show (p "dest_hist_len").bind _ = _
      rw [ho ("dest_hist_len", .int 1) (by simp [optionalKw, ownKw, normalizeKw, commonKw, defaultNoise])]; exact h_dest_hist_len
    have g_offset : Est.get ⟨⟨.te, .kernel⟩, [dx, dy], none, p⟩ "offset" PyVal.toOptArg = some o := by
      show (p "offset").bind _ = _
      rw [ho ("offset", .none) (by simp [optionalKw, ownKw, normalizeKw, commonKw, defaultNoise])]; exact h_offset
    have g_base : Est.get ⟨⟨.te, .kernel⟩, [dx, dy], none, p⟩ "base" PyVal.toBase = some b := by
      show (p "base").bind _ = _
      rw [ho ("base", W.b0) (by simp [optionalKw, ownKw, normalizeKw, commonKw, defaultNoise])]; exact h_base
    refine result_vec ?_
    simp (maxSteps := 2000000) only [Est.vecVal, Est.teVec, Option.bind_eq_bind, Option.bind_some, g_bandwidth, g_kernel, g_workers, g_prop_time, g_step_size, g_src_hist_len, g_dest_hist_len, g_offset, g_base, hx, hy, Est.pair, Est.kde, Est.te]
  obtain ⟨p, e, hr, ho⟩ := im_te_eval W.vec a cond kw dx dy ha hc (by simp [requiredKw]) h4
  rw [e, hv p hr ho]

theorem e2e_vte_metric {W : World} {dx dy : PyData} {a : PyName} {kw : Kw} {cond : CondKw PyData} (hc : cond.isVal = false) (ha : Names W.lower .te a .metric) 
    (h4 : Only ["k", "ksg_id", "noise_level", "minkowski_p", "prop_time", "step_size", "src_hist_len", "dest_hist_len", "cond_hist_len", "offset", "base", "seed"] kw)
    {k : Nat} {i : Int} {v : ℝ} {mp : PNorm} {u : Option PyArg} {s : PyArg} {sh : PyArg} {dh : PyArg} {o : Option PyArg} {b : Base} 
    (h_k : (kwOr kw "k" (.int 4)).toNat = some k)
    (h_ksg_id : (kwOr kw "ksg_id" (.int 1)).toInt = some i)
    (h_noise_level : (kwOr kw "noise_level" (.num (1 / 10 ^ 8))).toNoise = some v)
    (h_minkowski_p : (kwOr kw "minkowski_p" (.inf)).toPNorm = some mp)
    (h_prop_time : (kwOr kw "prop_time" (.int 0)).toOptArg = some u)
    (h_step_size : (kwOr kw "step_size" (.int 1)).toArg = some s)
    (h_src_hist_len : (kwOr kw "src_hist_len" (.int 1)).toArg = some sh)
    (h_dest_hist_len : (kwOr kw "dest_hist_len" (.int 1)).toArg = some dh)
    (h_offset : (kwOr kw "offset" (.none)).toOptArg = some o)
    (h_base : (kwOr kw "base" (W.b0)).toBase = some b)
    {x y : List (List ℝ)} (hx : PyData.toRows dx = some x) (hy : PyData.toRows dy = some y) :
    imTE W.vec [dx, dy] a cond kw = ksgTEVec x y { srcHist := sh, destHist := dh, step := s } u o { k := k, ksgId := i, p := mp } (W.noise2 v 0) (W.noise2 v 1) b := by
  have hv : ∀ p : Kw, (∀ r ∈ requiredKw .te .metric, p r = kw r) →
      (∀ o ∈ optionalKw W.b0 ⟨.te, .metric⟩, p o.1 = some (kwOr kw o.1 o.2)) →
      Est.result W.vec ⟨⟨.te, .metric⟩, [dx, dy], none, p⟩ = ksgTEVec x y { srcHist := sh, destHist := dh, step := s } u o { k := k, ksgId := i, p := mp } (W.noise2 v 0) (W.noise2 v 1) b := by
    intro p hr ho
    have g_k : Est.get ⟨⟨.te, .metric⟩, [dx, dy], none, p⟩ "k" PyVal.toNat = some k := by
      show (p "k").bind _ = _
      rw [ho ("k", .int 4) (by simp [optionalKw, ownKw, normalizeKw, commonKw, defaultNoise])]; exact h_k
    have g_ksg_id : Est.get ⟨⟨.te, .metric⟩, [dx, dy], none, p⟩ "ksg_id" PyVal.toInt = some i := by
      show (p "ksg_id").bind _ = _
      rw [ho ("ksg_id", .int 1) (by simp [optionalKw, ownKw, normalizeKw, commonKw, defaultNoise])]; exact h_ksg_id
    have g_noise_level : Est.get ⟨⟨.te, .metric⟩, [dx, dy], none, p⟩ "noise_level" PyVal.toNoise = some v := by
      show (p "noise_level").bind _ = _
      rw [ho ("noise_level", .num (1 / 10 ^ 8)) (by simp [optionalKw, ownKw, normalizeKw, commonKw, defaultNoise])]; exact h_noise_level
    have g_minkowski_p : Est.get ⟨⟨.te, .metric⟩, [dx, dy], none, p⟩ "minkowski_p" PyVal.toPNorm = some mp := by
      show (p "minkowski_p").bind _ = _
      rw [ho ("minkowski_p", .inf) (by simp [optionalKw, ownKw, normalizeKw, commonKw, defaultNoise])]; exact h_minkowski_p
    have g_prop_time : Est.get ⟨⟨.te, .metric⟩, [dx, dy], none, p⟩ "prop_time" PyVal.toOptArg = some u := by
      show (p "prop_time").bind _ = _
      rw [ho ("prop_time", .int 0) (by simp [optionalKw, ownKw, normalizeKw, commonKw, defaultNoise])]; exact h_prop_time
    have g_step_size : Est.get ⟨⟨.te, .metric⟩, [dx, dy], none, p⟩ "step_size" PyVal.toArg = some s := by
      show (p "step_size").bind _ = _
      rw [ho ("step_size", .int 1) (by simp [optionalKw, ownKw, normalizeKw, commonKw, defaultNoise])]; exact h_step_size
    have g_src_hist_len : Est.get ⟨⟨.te, .metric⟩, [dx, dy], none, p⟩ "src_hist_len" PyVal.toArg = some sh := by
      show (p "src_hist_len").bind _ = _
      rw [ho ("src_hist_len", .int 1) (by simp [optionalKw, ownKw, normalizeKw, commonKw, defaultNoise])]; exact h_src_hist_len
    have g_dest_hist_len : Est.get ⟨⟨.te, .metric⟩, [dx, dy], none, p⟩ "dest_hist_len" PyVal.toArg = some dh := by
      show (p "dest_hist_len").bind _ = _
      rw [ho ("dest_hist_len", .int 1) (by simp [optionalKw, ownKw, normalizeKw, commonKw, defaultNoise])]; exact h_dest_hist_len
    have g_offset : Est.get ⟨⟨.te, .metric⟩, [dx, dy], none, p⟩ "offset" PyVal.toOptArg = some o := by
      show (p "offset").bind _ = _
      rw [ho ("offset", .none) (by simp [optionalKw, ownKw, normalizeKw, commonKw, defaultNoise])]; exact h_offset
    have g_base : Est.get ⟨⟨.te, .metric⟩, [dx, dy], none, p⟩ "base" PyVal.toBase = some b := by
      show (p "base").bind _ = _
      rw [ho ("base", W.b0) (by simp [optionalKw, ownKw, normalizeKw, commonKw, defaultNoise])]; exact h_base
    refine result_vec ?_
    simp (maxSteps := 2000000) only [Est.vecVal, Est.teVec, Option.bind_eq_bind, Option.bind_some, g_k, g_ksg_id, g_noise_level, g_minkowski_p, g_prop_time, g_step_size, g_src_hist_len, g_dest_hist_len, g_offset, g_base, hx, hy, Est.pair, Est.ksg, Est.te]
  obtain ⟨p, e, hr, ho⟩ := im_te_eval W.vec a cond kw dx dy ha hc (by simp [requiredKw]) h4
  rw [e, hv p hr ho]

theorem e2e_vte_renyi {W : World} {dx dy : PyData} {a : PyName} {kw : Kw} {cond : CondKw PyData} (hc : cond.isVal = false) (ha : Names W.lower .te a .renyi) 
    (h4 : Only ["k", "alpha", "noise_level", "prop_time", "step_size", "src_hist_len", "dest_hist_len", "cond_hist_len", "offset", "base", "seed"] kw)
    {k : PyArg} {q : PyArg} {v : ℝ} {u : Option PyArg} {s : PyArg} {sh : PyArg} {dh : PyArg} {o : Option PyArg} {b : Base} 
    (h_k : (kwOr kw "k" (.int 4)).toArg = some k)
    (h_alpha : (kwOr kw "alpha" (.none)).toArg = some q)
    (h_noise_level : (kwOr kw "noise_level" (.num (1 / 10 ^ 8))).toNoise = some v)
    (h_prop_time : (kwOr kw "prop_time" (.int 0)).toOptArg = some u)
    (h_step_size : (kwOr kw "step_size" (.int 1)).toArg = some s)
    (h_src_hist_len : (kwOr kw "src_hist_len" (.int 1)).toArg = some sh)
    (h_dest_hist_len : (kwOr kw "dest_hist_len" (.int 1)).toArg = some dh)
    (h_offset : (kwOr kw "offset" (.none)).toOptArg = some o)
    (h_base : (kwOr kw "base" (W.b0)).toBase = some b)
    {x y : List (List ℝ)} (hx : PyData.toRows dx = some x) (hy : PyData.toRows dy = some y) :
    imTE W.vec [dx, dy] a cond kw = expTEVec renyiVal x y { srcHist := sh, destHist := dh, step := s } u o k q (W.noise2 v 0) (W.noise2 v 1) b := by
  have hv : ∀ p : Kw, (∀ r ∈ requiredKw .te .renyi, p r = kw r) →
      (∀ o ∈ optionalKw W.b0 ⟨.te, .renyi⟩, p o.1 = some (kwOr kw o.1 o.2)) →
      Est.result W.vec ⟨⟨.te, .renyi⟩, [dx, dy], none, p⟩ = expTEVec renyiVal x y { srcHist := sh, destHist := dh, step := s } u o k q (W.noise2 v 0) (W.noise2 v 1) b := by
    intro p hr ho
    have g_k : Est.get ⟨⟨.te, .renyi⟩, [dx, dy], none, p⟩ "k" PyVal.toArg = some k := by
      show (p "k").bind _ = _
      rw [ho ("k", .int 4) (by simp [optionalKw, ownKw, normalizeKw, commonKw, defaultNoise])]; exact h_k
    have g_alpha : Est.get ⟨⟨.te, .renyi⟩, [dx, dy], none, p⟩ "alpha" PyVal.toArg = some q := by
      show (p "alpha").bind _ = _
      rw [ho ("alpha", .none) (by simp [optionalKw, ownKw, normalizeKw, commonKw, defaultNoise])]; exact h_alpha
    have g_noise_level : Est.get ⟨⟨.te, .renyi⟩, [dx, dy], none, p⟩ "noise_level" PyVal.toNoise = some v := by
      show (p "noise_level").bind _ = _
      rw [ho ("noise_level", .num (1 / 10 ^ 8)) (by simp [optionalKw, ownKw, normalizeKw, commonKw, defaultNoise])]; exact h_noise_level
    have g_prop_time : Est.get ⟨⟨.te, .renyi⟩, [dx, dy], none, p⟩ "prop_time" PyVal.toOptArg = some u := by
      show (p "prop_time").bind _ = _
      rw [ho ("prop_time", .int 0) (by simp [optionalKw, ownKw, normalizeKw, commonKw, defaultNoise])]; exact h_prop_time
    have g_step_size : Est.get ⟨⟨.te, .renyi⟩, [dx, dy], none, p⟩ "step_size" PyVal.toArg = some s := by
      show (p "step_size").bind _ = _
      rw [ho ("step_size", .int 1) (by simp [optionalKw, ownKw, normalizeKw, commonKw, defaultNoise])]; exact h_step_size
    have g_src_hist_len : Est.get ⟨⟨.te, .renyi⟩, [dx, dy], none, p⟩ "src_hist_len" PyVal.toArg = some sh := by
      show (p "src_hist_len").bind _ = _
      rw [ho ("src_hist_len", .int 1) (by simp [optionalKw, ownKw, normalizeKw, commonKw, defaultNoise])]; exact h_src_hist_len
    have g_dest_hist_len : Est.get ⟨⟨.te, .renyi⟩, [dx, dy], none, p⟩ "dest_hist_len" PyVal.toArg = some dh := by
      show (p "dest_hist_len").bind _ = _
      rw [ho ("dest_hist_len", .int 1) (by simp [optionalKw, ownKw, normalizeKw, commonKw, defaultNoise])]; exact h_dest_hist_len
    have g_offset : Est.get ⟨⟨.te, .renyi⟩, [dx, dy], none, p⟩ "offset" PyVal.toOptArg = some o := by
      show (p "offset").bind _ = _
      rw [ho ("offset", .none) (by simp [optionalKw, ownKw, normalizeKw, commonKw, defaultNoise])]; exact h_offset
    have g_base : Est.get ⟨⟨.te, .renyi⟩, [dx, dy], none, p⟩ "base" PyVal.toBase = some b := by
      show (p "base").bind _ = _
      rw [ho ("base", W.b0) (by simp [optionalKw, ownKw, normalizeKw, commonKw, defaultNoise])]; exact h_base
    refine result_vec ?_
    simp (maxSteps := 2000000) only [Est.vecVal, Est.teVec, Option.bind_eq_bind, Option.bind_some, g_k, g_alpha, g_noise_level, g_prop_time, g_step_size, g_src_hist_len, g_dest_hist_len, g_offset, g_base, hx, hy, Est.pair, Est.te, expFam]
  obtain ⟨p, e, hr, ho⟩ := im_te_eval W.vec a cond kw dx dy ha hc (by simp [requiredKw]) h4
  rw [e, hv p hr ho]

theorem e2e_vte_tsallis {W : World} {dx dy : PyData} {a : PyName} {kw : Kw} {cond : CondKw PyData} (hc : cond.isVal = false) (ha : Names W.lower .te a .tsallis) 
    (h4 : Only ["k", "q", "noise_level", "prop_time", "step_size", "src_hist_len", "dest_hist_len", "cond_hist_len", "offset", "base", "seed"] kw)
    {k : PyArg} {q : PyArg} {v : ℝ} {u : Option PyArg} {s : PyArg} {sh : PyArg} {dh : PyArg} {o : Option PyArg} {b : Base} 
    (h_k : (kwOr kw "k" (.int 4)).toArg = some k)
    (h_q : (kwOr kw "q" (.none)).toArg = some q)
    (h_noise_level : (kwOr kw "noise_level" (.num (1 / 10 ^ 8))).toNoise = some v)
    (h_prop_time : (kwOr kw "prop_time" (.int 0)).toOptArg = some u)
    (h_step_size : (kwOr kw "step_size" (.int 1)).toArg = some s)
    (h_src_hist_len : (kwOr kw "src_hist_len" (.int 1)).toArg = some sh)
    (h_dest_hist_len : (kwOr kw "dest_hist_len" (.int 1)).toArg = some dh)
    (h_offset : (kwOr kw "offset" (.none)).toOptArg = some o)
    (h_base : (kwOr kw "base" (W.b0)).toBase = some b)
    {x y : List (List ℝ)} (hx : PyData.toRows dx = some x) (hy : PyData.toRows dy = some y) :
    imTE W.vec [dx, dy] a cond kw = expTEVec tsallisVal x y { srcHist := sh, destHist := dh, step := s } u o k q (W.noise2 v 0) (W.noise2 v 1) b := by
  have hv : ∀ p : Kw, (∀ r ∈ requiredKw .te .tsallis, p r = kw r) →
      (∀ o ∈ optionalKw W.b0 ⟨.te, .tsallis⟩, p o.1 = some (kwOr kw o.1 o.2)) →
      Est.result W.vec ⟨⟨.te, .tsallis⟩, [dx, dy], none, p⟩ = expTEVec tsallisVal x y { srcHist := sh, destHist := dh, step := s } u o k q (W.noise2 v 0) (W.noise2 v 1) b := by
    intro p hr ho
    have g_k : Est.get ⟨⟨.te, .tsallis⟩, [dx, dy], none, p⟩ "k" PyVal.toArg = some k := by
      show (p "k").bind _ = _
      rw [ho ("k", .int 4) (by simp [optionalKw, ownKw, normalizeKw, commonKw, defaultNoise])]; exact h_k
    have g_q : Est.get ⟨⟨.te, .tsallis⟩, [dx, dy], none, p⟩ "q" PyVal.toArg = some q := by
      show (p "q").bind _ = _
      rw [ho ("q", .none) (by simp [optionalKw, ownKw, normalizeKw, commonKw, defaultNoise])]; exact h_q
    have g_noise_level : Est.get ⟨⟨.te, .tsallis⟩, [dx, dy], none, p⟩ "noise_level" PyVal.toNoise = some v := by
      show (p "noise_level").bind _ = _
      rw [ho ("noise_level", .num (1 / 10 ^ 8)) (by simp [optionalKw, ownKw, normalizeKw, commonKw, defaultNoise])]; exact h_noise_level
    have g_prop_time : Est.get ⟨⟨.te, .tsallis⟩, [dx, dy], none, p⟩ "prop_time" PyVal.toOptArg = some u := by
      show (p "prop_time").bind _ = _
      rw [ho ("prop_time", .int 0) (by simp [optionalKw, ownKw, normalizeKw, commonKw, defaultNoise])]; exact h_prop_time
    have g_step_size : Est.get ⟨⟨.te, .tsallis⟩, [dx, dy], none, p⟩ "step_size" PyVal.toArg = some s := by
      show (p "step_size").bind _ = _
      rw [ho ("step_size", .int 1) (by simp [optionalKw, ownKw, normalizeKw, commonKw, defaultNoise])]; exact h_step_size
    have g_src_hist_len : Est.get ⟨⟨.te, .tsallis⟩, [dx, dy], none, p⟩ "src_hist_len" PyVal.toArg = some sh := by
      show (p "src_hist_len").bind _ = _
      rw [ho ("src_hist_len", .int 1) (by simp [optionalKw, ownKw, normalizeKw, commonKw, defaultNoise])]; exact h_src_hist_len
    have g_dest_hist_len : Est.get ⟨⟨.te, .tsallis⟩, [dx, dy], none, p⟩ "dest_hist_len" PyVal.toArg = some dh := by
      show (p "dest_hist_len").bind _ = _
      rw [ho ("dest_hist_len", .int 1) (by simp [optionalKw, ownKw, normalizeKw, commonKw, defaultNoise])]; exact h_dest_hist_len
    have g_offset : Est.get ⟨⟨.te, .tsallis⟩, [dx, dy], none, p⟩ "offset" PyVal.toOptArg = some o := by
      show (p "offset").bind _ = _
      rw [ho ("offset", .none) (by simp [optionalKw, ownKw, normalizeKw, commonKw, defaultNoise])]; exact h_offset
    have g_base : Est.get ⟨⟨.te, .tsallis⟩, [dx, dy], none, p⟩ "base" PyVal.toBase = some b := by
      show (p "base").bind _ = _
      rw [ho ("base", W.b0) (by simp [optionalKw, ownKw, normalizeKw, commonKw, defaultNoise])]; exact h_base
    refine result_vec ?_
    simp (maxSteps := 2000000) only [Est.vecVal, Est.teVec, Option.bind_eq_bind, Option.bind_some, g_k, g_q, g_noise_level, g_prop_time, g_step_size, g_src_hist_len, g_dest_hist_len, g_offset, g_base, hx, hy, Est.pair, Est.te, expFam]
  obtain ⟨p, e, hr, ho⟩ := im_te_eval W.vec a cond kw dx dy ha hc (by simp [requiredKw]) h4
  rw [e, hv p hr ho]

theorem e2e_vcte_discrete {W : World} {dx dy : PyData} {a : PyName} {kw : Kw} {dz : PyData} (ha : Names W.lower .cte a .discrete) 
    (h4 : Only ["prop_time", "step_size", "src_hist_len", "dest_hist_len", "cond_hist_len", "offset", "base", "seed"] kw)
    {u : Option PyArg} {s : PyArg} {sh : PyArg} {dh : PyArg} {ch : PyArg} {o : Option PyArg} {b : Base} 
    (h_prop_time : (kwOr kw "prop_time" (.int 0)).toOptArg = some u)
    (h_step_size : (kwOr kw "step_size" (.int 1)).toArg = some s)
    (h_src_hist_len : (kwOr kw "src_hist_len" (.int 1)).toArg = some sh)
    (h_dest_hist_len : (kwOr kw "dest_hist_len" (.int 1)).toArg = some dh)
    (h_cond_hist_len : (kwOr kw "cond_hist_len" (.int 1)).toArg = some ch)
    (h_offset : (kwOr kw "offset" (.none)).toOptArg = some o)
    (h_base : (kwOr kw "base" (W.b0)).toBase = some b)
    {x y : List (List Int)} (hx : PyData.toIntRows dx = some x) (hy : PyData.toIntRows dy = some y) {z : CondSeries} (hz : PyData.toCondSeries dz = some z) :
    imCTE W.vec [dx, dy] a (.val dz) kw = discreteCTEOf x y z { srcHist := sh, destHist := dh, step := s } ch u o b false ∧
      imTE W.vec [dx, dy] a (.val dz) kw = discreteCTEOf x y z { srcHist := sh, destHist := dh, step := s } ch u o b false := by
  have hv : ∀ p : Kw, (∀ r ∈ requiredKw .cte .discrete, p r = kw r) →
      (∀ o ∈ optionalKw W.b0 ⟨.cte, .discrete⟩, p o.1 = some (kwOr kw o.1 o.2)) →
      Est.result W.vec ⟨⟨.cte, .discrete⟩, [dx, dy], (some dz), p⟩ = discreteCTEOf x y z { srcHist := sh, destHist := dh, step := s } ch u o b false := by
    intro p hr ho
    have g_prop_time : Est.get ⟨⟨.cte, .discrete⟩, [dx, dy], (some dz), p⟩ "prop_time" PyVal.toOptArg = some u := by
      show (p "prop_time").bind _ = _
      rw [ho ("prop_time", .int 0) (by simp [optionalKw, ownKw, normalizeKw, commonKw, defaultNoise])]; exact h_prop_time
    have g_step_size : Est.get ⟨⟨.cte, .discrete⟩, [dx, dy], (some dz), p⟩ "step_size" PyVal.toArg = some s := by
      show (p "step_size").bind _ = _
      rw [ho ("step_size", .int 1) (by simp [optionalKw, ownKw, normalizeKw, commonKw, defaultNoise])]; exact h_step_size
    have g_src_hist_len : Est.get ⟨⟨.cte, .discrete⟩, [dx, dy], (some dz), p⟩ "src_hist_len" PyVal.toArg = some sh := by
      show (p "src_hist_len").bind _ = _
      rw [ho ("src_hist_len", .int 1) (by simp [optionalKw, ownKw, normalizeKw, commonKw, defaultNoise])]; exact h_src_hist_len
    have g_dest_hist_len : Est.get ⟨⟨.cte, .discrete⟩, [dx, dy], (some dz), p⟩ "dest_hist_len" PyVal.toArg = some dh := by
      show (p "dest_hist_len").bind _ = _
      rw [ho ("dest_hist_len", .int 1) (by simp [optionalKw, ownKw, normalizeKw, commonKw, defaultNoise])]; exact h_dest_hist_len
    have g_cond_hist_len : Est.get ⟨⟨.cte, .discrete⟩, [dx, dy], (some dz), p⟩ "cond_hist_len" PyVal.toArg = some ch := by
      show (p "cond_hist_len").bind _ = _
      rw [ho ("cond_hist_len", .int 1) (by simp [optionalKw, ownKw, normalizeKw, commonKw, defaultNoise])]; exact h_cond_hist_len
    have g_offset : Est.get ⟨⟨.cte, .discrete⟩, [dx, dy], (some dz), p⟩ "offset" PyVal.toOptArg = some o := by
      show (p "offset").bind _ = _
      rw [ho ("offset", .none) (by simp [optionalKw, ownKw, normalizeKw, commonKw, defaultNoise])]; exact h_offset
    have g_base : Est.get ⟨⟨.cte, .discrete⟩, [dx, dy], (some dz), p⟩ "base" PyVal.toBase = some b := by
      show (p "base").bind _ = _
      rw [ho ("base", W.b0) (by simp [optionalKw, ownKw, normalizeKw, commonKw, defaultNoise])]; exact h_base
    refine result_vec ?_
    simp (maxSteps := 2000000) only [Est.vecVal, Est.cteVec, Option.bind_eq_bind, Option.bind_some, g_prop_time, g_step_size, g_src_hist_len, g_dest_hist_len, g_cond_hist_len, g_offset, g_base, hx, hy, Est.pair, hz, Est.te]
  obtain ⟨p, e, e', hr, ho⟩ := im_cte_eval W.vec a kw dx dy dz ha (by simp [requiredKw]) h4
  rw [e, e', hv p hr ho]
  exact ⟨rfl, rfl⟩

theorem e2e_vcte_millerMadow {W : World} {dx dy : PyData} {a : PyName} {kw : Kw} {dz : PyData} (ha : Names W.lower .cte a .millerMadow) 
    (h4 : Only ["prop_time", "step_size", "src_hist_len", "dest_hist_len", "cond_hist_len", "offset", "base", "seed"] kw)
    {u : Option PyArg} {s : PyArg} {sh : PyArg} {dh : PyArg} {ch : PyArg} {o : Option PyArg} {b : Base} 
    (h_prop_time : (kwOr kw "prop_time" (.int 0)).toOptArg = some u)
    (h_step_size : (kwOr kw "step_size" (.int 1)).toArg = some s)
    (h_src_hist_len : (kwOr kw "src_hist_len" (.int 1)).toArg = some sh)
    (h_dest_hist_len : (kwOr kw "dest_hist_len" (.int 1)).toArg = some dh)
    (h_cond_hist_len : (kwOr kw "cond_hist_len" (.int 1)).toArg = some ch)
    (h_offset : (kwOr kw "offset" (.none)).toOptArg = some o)
    (h_base : (kwOr kw "base" (W.b0)).toBase = some b)
    {x y : List (List Int)} (hx : PyData.toIntRows dx = some x) (hy : PyData.toIntRows dy = some y) {z : CondSeries} (hz : PyData.toCondSeries dz = some z) :
    imCTE W.vec [dx, dy] a (.val dz) kw = discreteCTEOf x y z { srcHist := sh, destHist := dh, step := s } ch u o b true ∧
      imTE W.vec [dx, dy] a (.val dz) kw = discreteCTEOf x y z { srcHist := sh, destHist := dh, step := s } ch u o b true := by
  have hv : ∀ p : Kw, (∀ r ∈ requiredKw .cte .millerMadow, p r = kw r) →
      (∀ o ∈ optionalKw W.b0 ⟨.cte, .millerMadow⟩, p o.1 = some (kwOr kw o.1 o.2)) →
      Est.result W.vec ⟨⟨.cte, .millerMadow⟩, [dx, dy], (some dz), p⟩ = discreteCTEOf x y z { srcHist := sh, destHist := dh, step := s } ch u o b true := by
    intro p hr ho
    have g_prop_time : Est.get ⟨⟨.cte, .millerMadow⟩, [dx, dy], (some dz), p⟩ "prop_time" PyVal.toOptArg = some u := by
      show (p "prop_time").bind _ = _
      rw [ho ("prop_time", .int 0) (by simp [optionalKw, ownKw, normalizeKw, commonKw, defaultNoise])]; exact h_prop_time
    have g_step_size : Est.get ⟨⟨.cte, .millerMadow⟩, [dx, dy], (some dz), p⟩ "step_size" PyVal.toArg = some s := by
      show (p "step_size").bind _ = _
      rw [ho ("step_size", .int 1) (by simp [optionalKw, ownKw, normalizeKw, commonKw, defaultNoise])]; exact h_step_size
    have g_src_hist_len : Est.get ⟨⟨.cte, .millerMadow⟩, [dx, dy], (some dz), p⟩ "src_hist_len" PyVal.toArg = some sh := by
      show (p "src_hist_len").bind _ = _
      rw [ho ("src_hist_len", .int 1) (by simp [optionalKw, ownKw, normalizeKw, commonKw, defaultNoise])]; exact h_src_hist_len
    have g_dest_hist_len : Est.get ⟨⟨.cte, .millerMadow⟩, [dx, dy], (some dz), p⟩ "dest_hist_len" PyVal.toArg = some dh := by
      show (p "dest_hist_len").bind _ = _
      rw [ho ("dest_hist_len", .int 1) (by simp [optionalKw, ownKw, normalizeKw, commonKw, defaultNoise])]; exact h_dest_hist_len
    have g_cond_hist_len : Est.get ⟨⟨.cte, .millerMadow⟩, [dx, dy], (some dz), p⟩ "cond_hist_len" PyVal.toArg = some ch := by
      show (p "cond_hist_len").bind _ = _
      rw [ho ("cond_hist_len", .int 1) (by simp [optionalKw, ownKw, normalizeKw, commonKw, defaultNoise])]; exact h_cond_hist_len
    have g_offset : Est.get ⟨⟨.cte, .millerMadow⟩, [dx, dy], (some dz), p⟩ "offset" PyVal.toOptArg = some o := by
      show (p "offset").bind _ = _
      rw [ho ("offset", .none) (by simp [optionalKw, ownKw, normalizeKw, commonKw, defaultNoise])]; exact h_offset
    have g_base : Est.get ⟨⟨.cte, .millerMadow⟩, [dx, dy], (some dz), p⟩ "base" PyVal.toBase = some b := by
      show (p "base").bind _ = _
      rw [ho ("base", W.b0) (by simp [optionalKw, ownKw, normalizeKw, commonKw, defaultNoise])]; exact h_base
    refine result_vec ?_
    simp (maxSteps := 2000000) only [Est.vecVal, Est.cteVec, Option.bind_eq_bind, Option.bind_some, g_prop_time, g_step_size, g_src_hist_len, g_dest_hist_len, g_cond_hist_len, g_offset, g_base, hx, hy, Est.pair, hz, Est.te]
  obtain ⟨p, e, e', hr, ho⟩ := im_cte_eval W.vec a kw dx dy dz ha (by simp [requiredKw]) h4
  rw [e, e', hv p hr ho]
  exact ⟨rfl, rfl⟩

theorem e2e_vcte_grassberger {W : World} {dx dy : PyData} {a : PyName} {kw : Kw} {dz : PyData} (ha : Names W.lower .cte a .grassberger) 
    (h4 : Only ["prop_time", "step_size", "src_hist_len", "dest_hist_len", "cond_hist_len", "offset", "base", "seed"] kw)
    {u : Option PyArg} {s : PyArg} {sh : PyArg} {dh : PyArg} {ch : PyArg} {o : Option PyArg} {b : Base} 
    (h_prop_time : (kwOr kw "prop_time" (.int 0)).toOptArg = some u)
    (h_step_size : (kwOr kw "step_size" (.int 1)).toArg = some s)
    (h_src_hist_len : (kwOr kw "src_hist_len" (.int 1)).toArg = some sh)
    (h_dest_hist_len : (kwOr kw "dest_hist_len" (.int 1)).toArg = some dh)
    (h_cond_hist_len : (kwOr kw "cond_hist_len" (.int 1)).toArg = some ch)
    (h_offset : (kwOr kw "offset" (.none)).toOptArg = some o)
    (h_base : (kwOr kw "base" (W.b0)).toBase = some b)
    {x y : List (List Int)} (hx : PyData.toIntRows dx = some x) (hy : PyData.toIntRows dy = some y) {z : List (List Int)} (hz : PyData.toIntRows dz = some z) :
    imCTE W.vec [dx, dy] a (.val dz) kw = biasCTEVec .grassberger x y (some z) { srcHist := sh, destHist := dh, step := s } ch u o b ∧
      imTE W.vec [dx, dy] a (.val dz) kw = biasCTEVec .grassberger x y (some z) { srcHist := sh, destHist := dh, step := s } ch u o b := by
  have hv : ∀ p : Kw, (∀ r ∈ requiredKw .cte .grassberger, p r = kw r) →
      (∀ o ∈ optionalKw W.b0 ⟨.cte, .grassberger⟩, p o.1 = some (kwOr kw o.1 o.2)) →
      Est.result W.vec ⟨⟨.cte, .grassberger⟩, [dx, dy], (some dz), p⟩ = biasCTEVec .grassberger x y (some z) { srcHist := sh, destHist := dh, step := s } ch u o b := by
    intro p hr ho
    have g_prop_time : Est.get ⟨⟨.cte, .grassberger⟩, [dx, dy], (some dz), p⟩ "prop_time" PyVal.toOptArg = some u := by
      show (p "prop_time").bind _ = _
      rw [ho ("prop_time", .int 0) (by simp [optionalKw, ownKw, normalizeKw, commonKw, defaultNoise])]; exact h_prop_time
    have g_step_size : Est.get ⟨⟨.cte, .grassberger⟩, [dx, dy], (some dz), p⟩ "step_size" PyVal.toArg = some s := by
      show (p "step_size").bind _ = _
      rw [ho ("step_size", .int 1) (by simp [optionalKw, ownKw, normalizeKw, commonKw, defaultNoise])]; exact h_step_size
    have g_src_hist_len : Est.get ⟨⟨.cte, .grassberger⟩, [dx, dy], (some dz), p⟩ "src_hist_len" PyVal.toArg = some sh := by
      show (p "src_hist_len").bind _ = _
      rw [ho ("src_hist_len", .int 1) (by simp [optionalKw, ownKw, normalizeKw, commonKw, defaultNoise])]; exact h_src_hist_len
    have g_dest_hist_len : Est.get ⟨⟨.cte, .grassberger⟩, [dx, dy], (some dz), p⟩ "dest_hist_len" PyVal.toArg = some dh := by
      show (p "dest_hist_len").bind _ = _
      rw [ho ("dest_hist_len", .int 1) (by simp [optionalKw, ownKw, normalizeKw, commonKw, defaultNoise])]; exact h_dest_hist_len
    have g_cond_hist_len : Est.get ⟨⟨.cte, .grassberger⟩, [dx, dy], (some dz), p⟩ "cond_hist_len" PyVal.toArg = some ch := by
      show (p "cond_hist_len").bind _ = _
      rw [ho ("cond_hist_len", .int 1) (by simp [optionalKw, ownKw, normalizeKw, commonKw, defaultNoise])]; exact h_cond_hist_len
    have g_offset : Est.get ⟨⟨.cte, .grassberger⟩, [dx, dy], (some dz), p⟩ "offset" PyVal.toOptArg = some o := by
      show (p "offset").bind _ = _
      rw [ho ("offset", .none) (by simp [optionalKw, ownKw, normalizeKw, commonKw, defaultNoise])]; exact h_offset
    have g_base : Est.get ⟨⟨.cte, .grassberger⟩, [dx, dy], (some dz), p⟩ "base" PyVal.toBase = some b := by
      show (p "base").bind _ = _
      rw [ho ("base", W.b0) (by simp [optionalKw, ownKw, normalizeKw, commonKw, defaultNoise])]; exact h_base
    refine result_vec ?_
    simp (maxSteps := 2000000) only [Est.vecVal, Est.cteVec, Option.bind_eq_bind, Option.bind_some, g_prop_time, g_step_size, g_src_hist_len, g_dest_hist_len, g_cond_hist_len, g_offset, g_base, hx, hy, Est.pair, hz, Est.te, Est.bclass]
  obtain ⟨p, e, e', hr, ho⟩ := im_cte_eval W.vec a kw dx dy dz ha (by simp [requiredKw]) h4
  rw [e, e', hv p hr ho]
  exact ⟨rfl, rfl⟩

theorem e2e_vcte_chaoShen {W : World} {dx dy : PyData} {a : PyName} {kw : Kw} {dz : PyData} (ha : Names W.lower .cte a .chaoShen) 
    (h4 : Only ["prop_time", "step_size", "src_hist_len", "dest_hist_len", "cond_hist_len", "offset", "base", "seed"] kw)
    {u : Option PyArg} {s : PyArg} {sh : PyArg} {dh : PyArg} {ch : PyArg} {o : Option PyArg} {b : Base} 
    (h_prop_time : (kwOr kw "prop_time" (.int 0)).toOptArg = some u)
    (h_step_size : (kwOr kw "step_size" (.int 1)).toArg = some s)
    (h_src_hist_len : (kwOr kw "src_hist_len" (.int 1)).toArg = some sh)
    (h_dest_hist_len : (kwOr kw "dest_hist_len" (.int 1)).toArg = some dh)
    (h_cond_hist_len : (kwOr kw "cond_hist_len" (.int 1)).toArg = some ch)
    (h_offset : (kwOr kw "offset" (.none)).toOptArg = some o)
    (h_base : (kwOr kw "base" (W.b0)).toBase = some b)
    {x y : List (List Int)} (hx : PyData.toIntRows dx = some x) (hy : PyData.toIntRows dy = some y) {z : List (List Int)} (hz : PyData.toIntRows dz = some z) :
    imCTE W.vec [dx, dy] a (.val dz) kw = biasCTEVec .chaoShen x y (some z) { srcHist := sh, destHist := dh, step := s } ch u o b ∧
      imTE W.vec [dx, dy] a (.val dz) kw = biasCTEVec .chaoShen x y (some z) { srcHist := sh, destHist := dh, step := s } ch u o b := by
  have hv : ∀ p : Kw, (∀ r ∈ requiredKw .cte .chaoShen, p r = kw r) →
      (∀ o ∈ optionalKw W.b0 ⟨.cte, .chaoShen⟩, p o.1 = some (kwOr kw o.1 o.2)) →
      Est.result W.vec ⟨⟨.cte, .chaoShen⟩, [dx, dy], (some dz), p⟩ = biasCTEVec .chaoShen x y (some z) { srcHist := sh, destHist := dh, step := s } ch u o b := by
    intro p hr ho
    have g_prop_time : Est.get ⟨⟨.cte, .chaoShen⟩, [dx, dy], (some dz), p⟩ "prop_time" PyVal.toOptArg = some u := by
      show (p "prop_time").bind _ = _
      rw [ho ("prop_time", .int 0) (by simp [optionalKw, ownKw, normalizeKw, commonKw, defaultNoise])]; exact h_prop_time
    have g_step_size : Est.get ⟨⟨.cte, .chaoShen⟩, [dx, dy], (some dz), p⟩ "step_size" PyVal.toArg = some s := by
      show (p "step_size").bind _ = _
      rw [ho ("step_size", .int 1) (by simp [optionalKw, ownKw, normalizeKw, commonKw, defaultNoise])]; exact h_step_size
    have g_src_hist_len : Est.get ⟨⟨.cte, .chaoShen⟩, [dx, dy], (some dz), p⟩ "src_hist_len" PyVal.toArg = some sh := by
      show (p "src_hist_len").bind _ = _
      rw [ho ("src_hist_len", .int 1) (by simp [optionalKw, ownKw, normalizeKw, commonKw, defaultNoise])]; exact h_src_hist_len
    have g_dest_hist_len : Est.get ⟨⟨.cte, .chaoShen⟩, [dx, dy], (some dz), p⟩ "dest_hist_len" PyVal.toArg = some dh := by
      show (p "dest_hist_len").bind _ = _
      rw [ho ("dest_hist_len", .int 1) (by simp [optionalKw, ownKw, normalizeKw, commonKw, defaultNoise])]; exact h_dest_hist_len
    have g_cond_hist_len : Est.get ⟨⟨.cte, .chaoShen⟩, [dx, dy], (some dz), p⟩ "cond_hist_len" PyVal.toArg = some ch := by
      show (p "cond_hist_len").bind _ = _
      rw [ho ("cond_hist_len", .int 1) (by simp [optionalKw, ownKw, normalizeKw, commonKw, defaultNoise])]; exact h_cond_hist_len
    have g_offset : Est.get ⟨⟨.cte, .chaoShen⟩, [dx, dy], (some dz), p⟩ "offset" PyVal.toOptArg = some o := by
      show (p "offset").bind _ = _
      rw [ho ("offset", .none) (by simp [optionalKw, ownKw, normalizeKw, commonKw, defaultNoise])]; exact h_offset
    have g_base : Est.get ⟨⟨.cte, .chaoShen⟩, [dx, dy], (some dz), p⟩ "base" PyVal.toBase = some b := by
      show (p "base").bind _ = _
      rw [ho ("base", W.b0) (by simp [optionalKw, ownKw, normalizeKw, commonKw, defaultNoise])]; exact h_base
    refine result_vec ?_
    simp (maxSteps := 2000000) only [Est.vecVal, Est.cteVec, Option.bind_eq_bind, Option.bind_some, g_prop_time, g_step_size, g_src_hist_len, g_dest_hist_len, g_cond_hist_len, g_offset, g_base, hx, hy, Est.pair, hz, Est.te, Est.bclass]
  obtain ⟨p, e, e', hr, ho⟩ := im_cte_eval W.vec a kw dx dy dz ha (by simp [requiredKw]) h4
  rw [e, e', hv p hr ho]
  exact ⟨rfl, rfl⟩

theorem e2e_vcte_chaoWangJost {W : World} {dx dy : PyData} {a : PyName} {kw : Kw} {dz : PyData} (ha : Names W.lower .cte a .chaoWangJost) 
    (h4 : Only ["prop_time", "step_size", "src_hist_len", "dest_hist_len", "cond_hist_len", "offset", "base", "seed"] kw)
    {u : Option PyArg} {s : PyArg} {sh : PyArg} {dh : PyArg} {ch : PyArg} {o : Option PyArg} {b : Base} 
    (h_prop_time : (kwOr kw "prop_time" (.int 0)).toOptArg = some u)
    (h_step_size : (kwOr kw "step_size" (.int 1)).toArg = some s)
    (h_src_hist_len : (kwOr kw "src_hist_len" (.int 1)).toArg = some sh)
    (h_dest_hist_len : (kwOr kw "dest_hist_len" (.int 1)).toArg = some dh)
    (h_cond_hist_len : (kwOr kw "cond_hist_len" (.int 1)).toArg = some ch)
    (h_offset : (kwOr kw "offset" (.none)).toOptArg = some o)
    (h_base : (kwOr kw "base" (W.b0)).toBase = some b)
    {x y : List (List Int)} (hx : PyData.toIntRows dx = some x) (hy : PyData.toIntRows dy = some y) {z : List (List Int)} (hz : PyData.toIntRows dz = some z) :
    imCTE W.vec [dx, dy] a (.val dz) kw = biasCTEVec .chaoWangJost x y (some z) { srcHist := sh, destHist := dh, step := s } ch u o b ∧
      imTE W.vec [dx, dy] a (.val dz) kw = biasCTEVec .chaoWangJost x y (some z) { srcHist := sh, destHist := dh, step := s } ch u o b := by
  have hv : ∀ p : Kw, (∀ r ∈ requiredKw .cte .chaoWangJost, p r = kw r) →
      (∀ o ∈ optionalKw W.b0 ⟨.cte, .chaoWangJost⟩, p o.1 = some (kwOr kw o.1 o.2)) →
      Est.result W.vec ⟨⟨.cte, .chaoWangJost⟩, [dx, dy], (some dz), p⟩ = biasCTEVec .chaoWangJost x y (some z) { srcHist := sh, destHist := dh, step := s } ch u o b := by
    intro p hr ho
    have g_prop_time : Est.get ⟨⟨.cte, .chaoWangJost⟩, [dx, dy], (some dz), p⟩ "prop_time" PyVal.toOptArg = some u := by
      show (p "prop_time").bind _ = _
      rw [ho ("prop_time", .int 0) (by simp [optionalKw, ownKw, normalizeKw, commonKw, defaultNoise])]; exact h_prop_time
    have g_step_size : Est.get ⟨⟨.cte, .chaoWangJost⟩, [dx, dy], (some dz), p⟩ "step_size" PyVal.toArg = some s := by
      show (p "step_size").bind _ = _
      rw [ho ("step_size", .int 1) (by simp [optionalKw, ownKw, normalizeKw, commonKw, defaultNoise])]; exact h_step_size
    have g_src_hist_len : Est.get ⟨⟨.cte, .chaoWangJost⟩, [dx, dy], (some dz), p⟩ "src_hist_len" PyVal.toArg = some sh := by
      show (p "src_hist_len").bind _ = _
      rw [ho ("src_hist_len", .int 1) (by simp [optionalKw, ownKw, normalizeKw, commonKw, defaultNoise])]; exact h_src_hist_len
    have g_dest_hist_len : Est.get ⟨⟨.cte, .chaoWangJost⟩, [dx, dy], (some dz), p⟩ "dest_hist_len" PyVal.toArg = some dh := by
      show (p "dest_hist_len").bind _ = _
      rw [ho ("dest_hist_len", .int 1) (by simp [optionalKw, ownKw, normalizeKw, commonKw, defaultNoise])]; exact h_dest_hist_len
    have g_cond_hist_len : Est.get ⟨⟨.cte, .chaoWangJost⟩, [dx, dy], (some dz), p⟩ "cond_hist_len" PyVal.toArg = some ch := by
      show (p "cond_hist_len").bind _ = _
      rw [ho ("cond_hist_len", .int 1) (by simp [optionalKw, ownKw, normalizeKw, commonKw, defaultNoise])]; exact h_cond_hist_len
    have g_offset : Est.get ⟨⟨.cte, .chaoWangJost⟩, [dx, dy], (some dz), p⟩ "offset" PyVal.toOptArg = some o := by
      show (p "offset").bind _ = _
      rw [ho ("offset", .none) (by simp [optionalKw, ownKw, normalizeKw, commonKw, defaultNoise])]; exact h_offset
    have g_base : Est.get ⟨⟨.cte, .chaoWangJost⟩, [dx, dy], (some dz), p⟩ "base" PyVal.toBase = some b := by
      show (p "base").bind _ = _
      rw [ho ("base", W.b0) (by simp [optionalKw, ownKw, normalizeKw, commonKw, defaultNoise])]; exact h_base
    refine result_vec ?_
    simp (maxSteps := 2000000) only [Est.vecVal, Est.cteVec, Option.bind_eq_bind, Option.bind_some, g_prop_time, g_step_size, g_src_hist_len, g_dest_hist_len, g_cond_hist_len, g_offset, g_base, hx, hy, Est.pair, hz, Est.te, Est.bclass]
  obtain ⟨p, e, e', hr, ho⟩ := im_cte_eval W.vec a kw dx dy dz ha (by simp [requiredKw]) h4
  rw [e, e', hv p hr ho]
  exact ⟨rfl, rfl⟩

theorem e2e_vcte_shrink {W : World} {dx dy : PyData} {a : PyName} {kw : Kw} {dz : PyData} (ha : Names W.lower .cte a .shrink) 
    (h4 : Only ["prop_time", "step_size", "src_hist_len", "dest_hist_len", "cond_hist_len", "offset", "base", "seed"] kw)
    {u : Option PyArg} {s : PyArg} {sh : PyArg} {dh : PyArg} {ch : PyArg} {o : Option PyArg} {b : Base} 
    (h_prop_time : (kwOr kw "prop_time" (.int 0)).toOptArg = some u)
    (h_step_size : (kwOr kw "step_size" (.int 1)).toArg = some s)
    (h_src_hist_len : (kwOr kw "src_hist_len" (.int 1)).toArg = some sh)
    (h_dest_hist_len : (kwOr kw "dest_hist_len" (.int 1)).toArg = some dh)
    (h_cond_hist_len : (kwOr kw "cond_hist_len" (.int 1)).toArg = some ch)
    (h_offset : (kwOr kw "offset" (.none)).toOptArg = some o)
    (h_base : (kwOr kw "base" (W.b0)).toBase = some b)
    {x y : List (List Int)} (hx : PyData.toIntRows dx = some x) (hy : PyData.toIntRows dy = some y) {z : List (List Int)} (hz : PyData.toIntRows dz = some z) :
    imCTE W.vec [dx, dy] a (.val dz) kw = biasCTEVec .shrink x y (some z) { srcHist := sh, destHist := dh, step := s } ch u o b ∧
      imTE W.vec [dx, dy] a (.val dz) kw = biasCTEVec .shrink x y (some z) { srcHist := sh, destHist := dh, step := s } ch u o b := by
  have hv : ∀ p : Kw, (∀ r ∈ requiredKw .cte .shrink, p r = kw r) →
      (∀ o ∈ optionalKw W.b0 ⟨.cte, .shrink⟩, p o.1 = some (kwOr kw o.1 o.2)) →
      Est.result W.vec ⟨⟨.cte, .shrink⟩, [dx, dy], (some dz), p⟩ = biasCTEVec .shrink x y (some z) { srcHist := sh, destHist := dh, step := s } ch u o b := by
    intro p hr ho
    have g_prop_time : Est.get ⟨⟨.cte, .shrink⟩, [dx, dy], (some dz), p⟩ "prop_time" PyVal.toOptArg = some u := by
      show (p "prop_time").bind _ = _
      rw [ho ("prop_time", .int 0) (by simp [optionalKw, ownKw, normalizeKw, commonKw, defaultNoise])]; exact h_prop_time
    have g_step_size : Est.get ⟨⟨.cte, .shrink⟩, [dx, dy], (some dz), p⟩ "step_size" PyVal.toArg = some s := by
      show (p "step_size").bind _ = _
      rw [ho ("step_size", .int 1) (by simp [optionalKw, ownKw, normalizeKw, commonKw, defaultNoise])]; exact h_step_size
    have g_src_hist_len : Est.get ⟨⟨.cte, .shrink⟩, [dx, dy], (some dz), p⟩ "src_hist_len" PyVal.toArg = some sh := by
      show (p "src_hist_len").bind _ = _
      rw [ho ("src_hist_len", .int 1) (by simp [optionalKw, ownKw, normalizeKw, commonKw, defaultNoise])]; exact h_src_hist_len
    have g_dest_hist_len : Est.get ⟨⟨.cte, .shrink⟩, [dx, dy], (some dz), p⟩ "dest_hist_len" PyVal.toArg = some dh := by
      show (p "dest_hist_len").bind _ = _
      rw [ho ("dest_hist_len", .int 1) (by simp [optionalKw, ownKw, normalizeKw, commonKw, defaultNoise])]; exact h_dest_hist_len
    have g_cond_hist_len : Est.get ⟨⟨.cte, .shrink⟩, [dx, dy], (some dz), p⟩ "cond_hist_len" PyVal.toArg = some ch := by
      show (p "cond_hist_len").bind _ = _
      rw [ho ("cond_hist_len", .int 1) (by simp [optionalKw, ownKw, normalizeKw, commonKw, defaultNoise])]; exact h_cond_hist_len
    have g_offset : Est.get ⟨⟨.cte, .shrink⟩, [dx, dy], (some dz), p⟩ "offset" PyVal.toOptArg = some o := by
      show (p "offset").bind _ = _
      rw [ho ("offset", .none) (by simp [optionalKw, ownKw, normalizeKw, commonKw, defaultNoise])]; exact h_offset
    have g_base : Est.get ⟨⟨.cte, .shrink⟩, [dx, dy], (some dz), p⟩ "base" PyVal.toBase = some b := by
      show (p "base").bind _ = _
      rw [ho ("base", W.b0) (by simp [optionalKw, ownKw, normalizeKw, commonKw, defaultNoise])]; exact h_base
    refine result_vec ?_
    simp (maxSteps := 2000000) only [Est.vecVal, Est.cteVec, Option.bind_eq_bind, Option.bind_some, g_prop_time, g_step_size, g_src_hist_len, g_dest_hist_len, g_cond_hist_len, g_offset, g_base, hx, hy, Est.pair, hz, Est.te, Est.bclass]
  obtain ⟨p, e, e', hr, ho⟩ := im_cte_eval W.vec a kw dx dy dz ha (by simp [requiredKw]) h4
  rw [e, e', hv p hr ho]
  exact ⟨rfl, rfl⟩

theorem e2e_vcte_zhang {W : World} {dx dy : PyData} {a : PyName} {kw : Kw} {dz : PyData} (ha : Names W.lower .cte a .zhang) 
    (h4 : Only ["prop_time", "step_size", "src_hist_len", "dest_hist_len", "cond_hist_len", "offset", "base", "seed"] kw)
    {u : Option PyArg} {s : PyArg} {sh : PyArg} {dh : PyArg} {ch : PyArg} {o : Option PyArg} {b : Base} 
    (h_prop_time : (kwOr kw "prop_time" (.int 0)).toOptArg = some u)
    (h_step_size : (kwOr kw "step_size" (.int 1)).toArg = some s)
    (h_src_hist_len : (kwOr kw "src_hist_len" (.int 1)).toArg = some sh)
    (h_dest_hist_len : (kwOr kw "dest_hist_len" (.int 1)).toArg = some dh)
    (h_cond_hist_len : (kwOr kw "cond_hist_len" (.int 1)).toArg = some ch)
    (h_offset : (kwOr kw "offset" (.none)).toOptArg = some o)
    (h_base : (kwOr kw "base" (W.b0)).toBase = some b)
    {x y : List (List Int)} (hx : PyData.toIntRows dx = some x) (hy : PyData.toIntRows dy = some y) {z : List (List Int)} (hz : PyData.toIntRows dz = some z) :
    imCTE W.vec [dx, dy] a (.val dz) kw = biasCTEVec .zhang x y (some z) { srcHist := sh, destHist := dh, step := s } ch u o b ∧
      imTE W.vec [dx, dy] a (.val dz) kw = biasCTEVec .zhang x y (some z) { srcHist := sh, destHist := dh, step := s } ch u o b := by
  have hv : ∀ p : Kw, (∀ r ∈ requiredKw .cte .zhang, p r = kw r) →
      (∀ o ∈ optionalKw W.b0 ⟨.cte, .zhang⟩, p o.1 = some (kwOr kw o.1 o.2)) →
      Est.result W.vec ⟨⟨.cte, .zhang⟩, [dx, dy], (some dz), p⟩ = biasCTEVec .zhang x y (some z) { srcHist := sh, destHist := dh, step := s } ch u o b := by
    intro p hr ho
    have g_prop_time : Est.get ⟨⟨.cte, .zhang⟩, [dx, dy], (some dz), p⟩ "prop_time" PyVal.toOptArg = some u := by
      show (p "prop_time").bind _ = _
      rw [ho ("prop_time", .int 0) (by simp [optionalKw, ownKw, normalizeKw, commonKw, defaultNoise])]; exact h_prop_time
    have g_step_size : Est.get ⟨⟨.cte, .zhang⟩, [dx, dy], (some dz), p⟩ "step_size" PyVal.toArg = some s := by
      show (p "step_size").bind _ = _
      rw [ho ("step_size", .int 1) (by simp [optionalKw, ownKw, normalizeKw, commonKw, defaultNoise])]; exact h_step_size
    have g_src_hist_len : Est.get ⟨⟨.cte, .zhang⟩, [dx, dy], (some dz), p⟩ "src_hist_len" PyVal.toArg = some sh := by
      show (p "src_hist_len").bind _ = _
      rw [ho ("src_hist_len", .int 1) (by simp [optionalKw, ownKw, normalizeKw, commonKw, defaultNoise])]; exact h_src_hist_len
    have g_dest_hist_len : Est.get ⟨⟨.cte, .zhang⟩, [dx, dy], (some dz), p⟩ "dest_hist_len" PyVal.toArg = some dh := by
      show (p "dest_hist_len").bind _ = _
      rw [ho ("dest_hist_len", .int 1) (by simp [optionalKw, ownKw, normalizeKw, commonKw, defaultNoise])]; exact h_dest_hist_len
    have g_cond_hist_len : Est.get ⟨⟨.cte, .zhang⟩, [dx, dy], (some dz), p⟩ "cond_hist_len" PyVal.toArg = some ch := by
      show (p "cond_hist_len").bind _ = _
      rw [ho ("cond_hist_len", .int 1) (by simp [optionalKw, ownKw, normalizeKw, commonKw, defaultNoise])]; exact h_cond_hist_len
    have g_offset : Est.get ⟨⟨.cte, .zhang⟩, [dx, dy], (some dz), p⟩ "offset" PyVal.toOptArg = some o := by
      show (p "offset").bind _ = _
      rw [ho ("offset", .none) (by simp [optionalKw, ownKw, normalizeKw, commonKw, defaultNoise])]; exact h_offset
    have g_base : Est.get ⟨⟨.cte, .zhang⟩, [dx, dy], (some dz), p⟩ "base" PyVal.toBase = some b := by
      show (p "base").bind _ = _
      rw [ho ("base", W.b0) (by simp [optionalKw, ownKw, normalizeKw, commonKw, defaultNoise])]; exact h_base
    refine result_vec ?_
    simp (maxSteps := 2000000) only [Est.vecVal, Est.cteVec, Option.bind_eq_bind, Option.bind_some, g_prop_time, g_step_size, g_src_hist_len, g_dest_hist_len, g_cond_hist_len, g_offset, g_base, hx, hy, Est.pair, hz, Est.te, Est.bclass]
  obtain ⟨p, e, e', hr, ho⟩ := im_cte_eval W.vec a kw dx dy dz ha (by simp [requiredKw]) h4
  rw [e, e', hv p hr ho]
  exact ⟨rfl, rfl⟩

theorem e2e_vcte_bonachela {W : World} {dx dy : PyData} {a : PyName} {kw : Kw} {dz : PyData} (ha : Names W.lower .cte a .bonachela) 
    (h4 : Only ["prop_time", "step_size", "src_hist_len", "dest_hist_len", "cond_hist_len", "offset", "base", "seed"] kw)
    {u : Option PyArg} {s : PyArg} {sh : PyArg} {dh : PyArg} {ch : PyArg} {o : Option PyArg} {b : Base} 
    (h_prop_time : (kwOr kw "prop_time" (.int 0)).toOptArg = some u)
    (h_step_size : (kwOr kw "step_size" (.int 1)).toArg = some s)
    (h_src_hist_len : (kwOr kw "src_hist_len" (.int 1)).toArg = some sh)
    (h_dest_hist_len : (kwOr kw "dest_hist_len" (.int 1)).toArg = some dh)
    (h_cond_hist_len : (kwOr kw "cond_hist_len" (.int 1)).toArg = some ch)
    (h_offset : (kwOr kw "offset" (.none)).toOptArg = some o)
    (h_base : (kwOr kw "base" (W.b0)).toBase = some b)
    {x y : List (List Int)} (hx : PyData.toIntRows dx = some x) (hy : PyData.toIntRows dy = some y) {z : List (List Int)} (hz : PyData.toIntRows dz = some z) :
    imCTE W.vec [dx, dy] a (.val dz) kw = biasCTEVec .bonachela x y (some z) { srcHist := sh, destHist := dh, step := s } ch u o b ∧
      imTE W.vec [dx, dy] a (.val dz) kw = biasCTEVec .bonachela x y (some z) { srcHist := sh, destHist := dh, step := s } ch u o b := by
  have hv : ∀ p : Kw, (∀ r ∈ requiredKw .cte .bonachela, p r = kw r) →
      (∀ o ∈ optionalKw W.b0 ⟨.cte, .bonachela⟩, p o.1 = some (kwOr kw o.1 o.2)) →
      Est.result W.vec ⟨⟨.cte, .bonachela⟩, [dx, dy], (some dz), p⟩ = biasCTEVec .bonachela x y (some z) { srcHist := sh, destHist := dh, step := s } ch u o b := by
    intro p hr ho
    have g_prop_time : Est.get ⟨⟨.cte, .bonachela⟩, [dx, dy], (some dz), p⟩ "prop_time" PyVal.toOptArg = some u := by
      show (p "prop_time").bind _ = _
      rw [ho ("prop_time", .int 0) (by simp [optionalKw, ownKw, normalizeKw, commonKw, defaultNoise])]; exact h_prop_time
    have g_step_size : Est.get ⟨⟨.cte, .bonachela⟩, [dx, dy], (some dz), p⟩ "step_size" PyVal.toArg = some s := by
      show (p "step_size").bind _ = _
      rw [ho ("step_size", .int 1) (by simp [optionalKw, ownKw, normalizeKw, commonKw, defaultNoise])]; exact h_step_size
    have g_src_hist_len : Est.get ⟨⟨.cte, .bonachela⟩, [dx, dy], (some dz), p⟩ "src_hist_len" PyVal.toArg = some sh := by
      show (p "src_hist_len").bind _ = _
      rw [ho ("src_hist_len", .int 1) (by simp [optionalKw, ownKw, normalizeKw, commonKw, defaultNoise])]; exact h_src_hist_len
    have g_dest_hist_len : Est.get ⟨⟨.cte, .bonachela⟩, [dx, dy], (some dz), p⟩ "dest_hist_len" PyVal.toArg = some dh := by
      show (p "dest_hist_len").bind _ = _
      rw [ho ("dest_hist_len", .int 1) (by simp [optionalKw, ownKw, normalizeKw, commonKw, defaultNoise])]; exact h_dest_hist_len
    have g_cond_hist_len : Est.get ⟨⟨.cte, .bonachela⟩, [dx, dy], (some dz), p⟩ "cond_hist_len" PyVal.toArg = some ch := by
      show (p "cond_hist_len").bind _ = _
      rw [ho ("cond_hist_len", .int 1) (by simp [optionalKw, ownKw, normalizeKw, commonKw, defaultNoise])]; exact h_cond_hist_len
    have g_offset : Est.get ⟨⟨.cte, .bonachela⟩, [dx, dy], (some dz), p⟩ "offset" PyVal.toOptArg = some o := by
      show (p "offset").bind _ = _
      rw [ho ("offset", .none) (by simp [optionalKw, ownKw, normalizeKw, commonKw, defaultNoise])]; exact h_offset
    have g_base : Est.get ⟨⟨.cte, .bonachela⟩, [dx, dy], (some dz), p⟩ "base" PyVal.toBase = some b := by
      show (p "base").bind _ = _
      rw [ho ("base", W.b0) (by simp [optionalKw, ownKw, normalizeKw, commonKw, defaultNoise])]; exact h_base
    refine result_vec ?_
    simp (maxSteps := 2000000) only [Est.vecVal, Est.cteVec, Option.bind_eq_bind, Option.bind_some, g_prop_time, g_step_size, g_src_hist_len, g_dest_hist_len, g_cond_hist_len, g_offset, g_base, hx, hy, Est.pair, hz, Est.te, Est.bclass]
  obtain ⟨p, e, e', hr, ho⟩ := im_cte_eval W.vec a kw dx dy dz ha (by simp [requiredKw]) h4
  rw [e, e', hv p hr ho]
  exact ⟨rfl, rfl⟩

theorem e2e_vcte_bayes {W : World} {dx dy : PyData} {a : PyName} {kw : Kw} {dz : PyData} (ha : Names W.lower .cte a .bayes) 
    (h4 : Only ["alpha", "K", "prop_time", "step_size", "src_hist_len", "dest_hist_len", "cond_hist_len", "offset", "base", "seed"] kw)
    {al : AlphaArg} {K : Option PyArg} {u : Option PyArg} {s : PyArg} {sh : PyArg} {dh : PyArg} {ch : PyArg} {o : Option PyArg} {b : Base} 
    (h_alpha : (kw "alpha").bind PyVal.toAlpha = some al)
    (h_K : (kwOr kw "K" (.none)).toOptArg = some K)
    (h_prop_time : (kwOr kw "prop_time" (.int 0)).toOptArg = some u)
    (h_step_size : (kwOr kw "step_size" (.int 1)).toArg = some s)
    (h_src_hist_len : (kwOr kw "src_hist_len" (.int 1)).toArg = some sh)
    (h_dest_hist_len : (kwOr kw "dest_hist_len" (.int 1)).toArg = some dh)
    (h_cond_hist_len : (kwOr kw "cond_hist_len" (.int 1)).toArg = some ch)
    (h_offset : (kwOr kw "offset" (.none)).toOptArg = some o)
    (h_base : (kwOr kw "base" (W.b0)).toBase = some b)
    {x y : List (List Int)} (hx : PyData.toIntRows dx = some x) (hy : PyData.toIntRows dy = some y) {z : List (List Int)} (hz : PyData.toIntRows dz = some z) :
    imCTE W.vec [dx, dy] a (.val dz) kw = biasCTEVec (.bayes al K) x y (some z) { srcHist := sh, destHist := dh, step := s } ch u o b ∧
      imTE W.vec [dx, dy] a (.val dz) kw = biasCTEVec (.bayes al K) x y (some z) { srcHist := sh, destHist := dh, step := s } ch u o b := by
  have hv : ∀ p : Kw, (∀ r ∈ requiredKw .cte .bayes, p r = kw r) →
      (∀ o ∈ optionalKw W.b0 ⟨.cte, .bayes⟩, p o.1 = some (kwOr kw o.1 o.2)) →
      Est.result W.vec ⟨⟨.cte, .bayes⟩, [dx, dy], (some dz), p⟩ = biasCTEVec (.bayes al K) x y (some z) { srcHist := sh, destHist := dh, step := s } ch u o b := by
    intro p hr ho
    have g_alpha : Est.get ⟨⟨.cte, .bayes⟩, [dx, dy], (some dz), p⟩ "alpha" PyVal.toAlpha = some al := by
      show (p "alpha").bind _ = _
      rw [hr "alpha" (by simp [requiredKw])]; exact h_alpha
    have g_K : Est.get ⟨⟨.cte, .bayes⟩, [dx, dy], (some dz), p⟩ "K" PyVal.toOptArg = some K := by
      show (p "K").bind _ = _
      rw [ho ("K", .none) (by simp [optionalKw, ownKw, normalizeKw, commonKw, defaultNoise])]; exact h_K
    have g_prop_time : Est.get ⟨⟨.cte, .bayes⟩, [dx, dy], (some dz), p⟩ "prop_time" PyVal.toOptArg = some u := by
      show (p "prop_time").bind _ = _
      rw [ho ("prop_time", .int 0) (by simp [optionalKw, ownKw, normalizeKw, commonKw, defaultNoise])]; exact h_prop_time
    have g_step_size : Est.get ⟨⟨.cte, .bayes⟩, [dx, dy], (some dz), p⟩ "step_size" PyVal.toArg = some s := by
      show (p "step_size").bind _ = _
      rw [ho ("step_size", .int 1) (by simp [optionalKw, ownKw, normalizeKw, commonKw, defaultNoise])]; exact h_step_size
    have g_src_hist_len : Est.get ⟨⟨.cte, .bayes⟩, [dx, dy], (some dz), p⟩ "src_hist_len" PyVal.toArg = some sh := by
      show (p "src_hist_len").bind _ = _
      rw [ho ("src_hist_len", .int 1) (by simp [optionalKw, ownKw, normalizeKw, commonKw, defaultNoise])]; exact h_src_hist_len
    have g_dest_hist_len : Est.get ⟨⟨.cte, .bayes⟩, [dx, dy], (some dz), p⟩ "dest_hist_len" PyVal.toArg = some dh := by
      show (p "dest_hist_len").bind _ = _
      rw [ho ("dest_hist_len", .int 1) (by simp [optionalKw, ownKw, normalizeKw, commonKw, defaultNoise])]; exact h_dest_hist_len
    have g_cond_hist_len : Est.get ⟨⟨.cte, .bayes⟩, [dx, dy], (some dz), p⟩ "cond_hist_len" PyVal.toArg = some ch := by
      show (p "cond_hist_len").bind _ = _
      rw [ho ("cond_hist_len", .int 1) (by simp [optionalKw, ownKw, normalizeKw, commonKw, defaultNoise])]; exact h_cond_hist_len
    have g_offset : Est.get ⟨⟨.cte, .bayes⟩, [dx, dy], (some dz), p⟩ "offset" PyVal.toOptArg = some o := by
      show (p "offset").bind _ = _
      rw [ho ("offset", .none) (by simp [optionalKw, ownKw, normalizeKw, commonKw, defaultNoise])]; exact h_offset
    have g_base : Est.get ⟨⟨.cte, .bayes⟩, [dx, dy], (some dz), p⟩ "base" PyVal.toBase = some b := by
      show (p "base").bind _ = _
      rw [ho ("base", W.b0) (by simp [optionalKw, ownKw, normalizeKw, commonKw, defaultNoise])]; exact h_base
    refine result_vec ?_
    simp (maxSteps := 2000000) only [Est.vecVal, Est.cteVec, Option.bind_eq_bind, Option.bind_some, g_alpha, g_K, g_prop_time, g_step_size, g_src_hist_len, g_dest_hist_len, g_cond_hist_len, g_offset, g_base, hx, hy, Est.pair, hz, Est.te, Est.bclass]
  obtain ⟨p, e, e', hr, ho⟩ := im_cte_eval W.vec a kw dx dy dz ha (by
    intro r hr
    simp only [requiredKw, List.mem_cons, List.not_mem_nil, or_false] at hr
    rcases hr with rfl
    · intro hn; rw [hn] at h_alpha; simp at h_alpha) h4
  rw [e, e', hv p hr ho]
  exact ⟨rfl, rfl⟩

theorem e2e_vcte_ansb {W : World} {dx dy : PyData} {a : PyName} {kw : Kw} {dz : PyData} (ha : Names W.lower .cte a .ansb) 
    (h4 : Only ["undersampled", "prop_time", "step_size", "src_hist_len", "dest_hist_len", "cond_hist_len", "offset", "base", "seed"] kw)
    {us : ℝ} {u : Option PyArg} {s : PyArg} {sh : PyArg} {dh : PyArg} {ch : PyArg} {o : Option PyArg} {b : Base} 
    (h_undersampled : (kwOr kw "undersampled" (.num (1 / 10))).toNum = some us)
    (h_prop_time : (kwOr kw "prop_time" (.int 0)).toOptArg = some u)
    (h_step_size : (kwOr kw "step_size" (.int 1)).toArg = some s)
    (h_src_hist_len : (kwOr kw "src_hist_len" (.int 1)).toArg = some sh)
    (h_dest_hist_len : (kwOr kw "dest_hist_len" (.int 1)).toArg = some dh)
    (h_cond_hist_len : (kwOr kw "cond_hist_len" (.int 1)).toArg = some ch)
    (h_offset : (kwOr kw "offset" (.none)).toOptArg = some o)
    (h_base : (kwOr kw "base" (W.b0)).toBase = some b)
    {x y : List (List Int)} (hx : PyData.toIntRows dx = some x) (hy : PyData.toIntRows dy = some y) {z : List (List Int)} (hz : PyData.toIntRows dz = some z) :
    imCTE W.vec [dx, dy] a (.val dz) kw = biasCTEVec (.ansb us) x y (some z) { srcHist := sh, destHist := dh, step := s } ch u o b ∧
      imTE W.vec [dx, dy] a (.val dz) kw = biasCTEVec (.ansb us) x y (some z) { srcHist := sh, destHist := dh, step := s } ch u o b := by
  have hv : ∀ p : Kw, (∀ r ∈ requiredKw .cte .ansb, p r = kw r) →
      (∀ o ∈ optionalKw W.b0 ⟨.cte, .ansb⟩, p o.1 = some (kwOr kw o.1 o.2)) →
      Est.result W.vec ⟨⟨.cte, .ansb⟩, [dx, dy], (some dz), p⟩ = biasCTEVec (.ansb us) x y (some z) { srcHist := sh, destHist := dh, step := s } ch u o b := by
    intro p hr ho
    have g_undersampled : Est.get ⟨⟨.cte, .ansb⟩, [dx, dy], (some dz), p⟩ "undersampled" PyVal.toNum = some us := by
      show (p "undersampled").bind _ = _
      rw [ho ("undersampled", .num (1 / 10)) (by simp [optionalKw, ownKw, normalizeKw, commonKw, defaultNoise])]; exact h_undersampled
    have g_prop_time : Est.get ⟨⟨.cte, .ansb⟩, [dx, dy], (some dz), p⟩ "prop_time" PyVal.toOptArg = some u := by
      show (p "prop_time").bind _ = _
      rw [ho ("prop_time", .int 0) (by simp [optionalKw, ownKw, normalizeKw, commonKw, defaultNoise])]; exact h_prop_time
    have g_step_size : Est.get ⟨⟨.cte, .ansb⟩, [dx, dy], (some dz), p⟩ "step_size" PyVal.toArg = some s := by
      show (p "step_size").bind _ = _
      rw [ho ("step_size", .int 1) (by simp [optionalKw, ownKw, normalizeKw, commonKw, defaultNoise])]; exact h_step_size
    have g_src_hist_len : Est.get ⟨⟨.cte, .ansb⟩, [dx, dy], (some dz), p⟩ "src_hist_len" PyVal.toArg = some sh := by
      show (p "src_hist_len").bind _ = _
      rw [ho ("src_hist_len", .int 1) (by simp [optionalKw, ownKw, normalizeKw, commonKw, defaultNoise])]; exact h_src_hist_len
    have g_dest_hist_len : Est.get ⟨⟨.cte, .ansb⟩, [dx, dy], (some dz), p⟩ "dest_hist_len" PyVal.toArg = some dh := by
      show (p "dest_hist_len").bind _ = _
      rw [ho ("dest_hist_len", .int 1) (by simp [optionalKw, ownKw, normalizeKw, commonKw, defaultNoise])]; exact h_dest_hist_len
    have g_cond_hist_len : Est.get ⟨⟨.cte, .ansb⟩, [dx, dy], (some dz), p⟩ "cond_hist_len" PyVal.toArg = some ch := by
      show (p "cond_hist_len").bind _ = _
      rw [ho ("cond_hist_len", .int 1) (by simp [optionalKw, ownKw, normalizeKw, commonKw, defaultNoise])]; exact h_cond_hist_len
    have g_offset : Est.get ⟨⟨.cte, .ansb⟩, [dx, dy], (some dz), p⟩ "offset" PyVal.toOptArg = some o := by
      show (p "offset").bind _ = _
      rw [ho ("offset", .none) (by simp [optionalKw, ownKw, normalizeKw, commonKw, defaultNoise])]; exact h_offset
    have g_base : Est.get ⟨⟨.cte, .ansb⟩, [dx, dy], (some dz), p⟩ "base" PyVal.toBase = some b := by
      show (p "base").bind _ = _
      rw [ho ("base", W.b0) (by simp [optionalKw, ownKw, normalizeKw, commonKw, defaultNoise])]; exact h_base
    refine result_vec ?_
    simp (maxSteps := 2000000) only [Est.vecVal, Est.cteVec, Option.bind_eq_bind, Option.bind_some, g_undersampled, g_prop_time, g_step_size, g_src_hist_len, g_dest_hist_len, g_cond_hist_len, g_offset, g_base, hx, hy, Est.pair, hz, Est.te, Est.bclass]
  obtain ⟨p, e, e', hr, ho⟩ := im_cte_eval W.vec a kw dx dy dz ha (by simp [requiredKw]) h4
  rw [e, e', hv p hr ho]
  exact ⟨rfl, rfl⟩

theorem e2e_vcte_nsb {W : World} {dx dy : PyData} {a : PyName} {kw : Kw} {dz : PyData} (ha : Names W.lower .cte a .nsb) 
    (h4 : Only ["K", "prop_time", "step_size", "src_hist_len", "dest_hist_len", "cond_hist_len", "offset", "base", "seed"] kw)
    {K : Option PyArg} {u : Option PyArg} {s : PyArg} {sh : PyArg} {dh : PyArg} {ch : PyArg} {o : Option PyArg} {b : Base} 
    (h_K : (kwOr kw "K" (.none)).toOptArg = some K)
    (h_prop_time : (kwOr kw "prop_time" (.int 0)).toOptArg = some u)
    (h_step_size : (kwOr kw "step_size" (.int 1)).toArg = some s)
    (h_src_hist_len : (kwOr kw "src_hist_len" (.int 1)).toArg = some sh)
    (h_dest_hist_len : (kwOr kw "dest_hist_len" (.int 1)).toArg = some dh)
    (h_cond_hist_len : (kwOr kw "cond_hist_len" (.int 1)).toArg = some ch)
    (h_offset : (kwOr kw "offset" (.none)).toOptArg = some o)
    (h_base : (kwOr kw "base" (W.b0)).toBase = some b)
    {x y : List (List Int)} (hx : PyData.toIntRows dx = some x) (hy : PyData.toIntRows dy = some y) {z : List (List Int)} (hz : PyData.toIntRows dz = some z) :
    imCTE W.vec [dx, dy] a (.val dz) kw = nsbCTEVec W.find K x y (some z) { srcHist := sh, destHist := dh, step := s } ch u o b ∧
      imTE W.vec [dx, dy] a (.val dz) kw = nsbCTEVec W.find K x y (some z) { srcHist := sh, destHist := dh, step := s } ch u o b := by
  have hv : ∀ p : Kw, (∀ r ∈ requiredKw .cte .nsb, p r = kw r) →
      (∀ o ∈ optionalKw W.b0 ⟨.cte, .nsb⟩, p o.1 = some (kwOr kw o.1 o.2)) →
      Est.result W.vec ⟨⟨.cte, .nsb⟩, [dx, dy], (some dz), p⟩ = nsbCTEVec W.find K x y (some z) { srcHist := sh, destHist := dh, step := s } ch u o b := by
    intro p hr ho
    have g_K : Est.get ⟨⟨.cte, .nsb⟩, [dx, dy], (some dz), p⟩ "K" PyVal.toOptArg = some K := by
      show (p "K").bind _ = _
      rw [ho ("K", .none) (by simp [optionalKw, ownKw, normalizeKw, commonKw, defaultNoise])]; exact h_K
    have g_prop_time : Est.get ⟨⟨.cte, .nsb⟩, [dx, dy], (some dz), p⟩ "prop_time" PyVal.toOptArg = some u := by
      show (p "prop_time").bind _ = _
      rw [ho ("prop_time", .int 0) (by simp [optionalKw, ownKw, normalizeKw, commonKw, defaultNoise])]; exact h_prop_time
    have g_step_size : Est.get ⟨⟨.cte, .nsb⟩, [dx, dy], (some dz), p⟩ "step_size" PyVal.toArg = some s := by
      show (p "step_size").bind _ = _
      rw [ho ("step_size", .int 1) (by simp [optionalKw, ownKw, normalizeKw, commonKw, defaultNoise])]; exact h_step_size
    have g_src_hist_len : Est.get ⟨⟨.cte, .nsb⟩, [dx, dy], (some dz), p⟩ "src_hist_len" PyVal.toArg = some sh := by
      show (p "src_hist_len").bind _ = _
      rw [ho ("src_hist_len", .int 1) (by simp [optionalKw, ownKw, normalizeKw, commonKw, defaultNoise])]; exact h_src_hist_len
    have g_dest_hist_len : Est.get ⟨⟨.cte, .nsb⟩, [dx, dy], (some dz), p⟩ "dest_hist_len" PyVal.toArg = some dh := by
      show (p "dest_hist_len").bind _ = _
      rw [ho ("dest_hist_len", .int 1) (by simp [optionalKw, ownKw, normalizeKw, commonKw, defaultNoise])]; exact h_dest_hist_len
    have g_cond_hist_len : Est.get ⟨⟨.cte, .nsb⟩, [dx, dy], (some dz), p⟩ "cond_hist_len" PyVal.toArg = some ch := by
      show (p "cond_hist_len").bind _ = _
      rw [ho ("cond_hist_len", .int 1) (by simp [optionalKw, ownKw, normalizeKw, commonKw, defaultNoise])]; exact h_cond_hist_len
    have g_offset : Est.get ⟨⟨.cte, .nsb⟩, [dx, dy], (some dz), p⟩ "offset" PyVal.toOptArg = some o := by
      show (p "offset").bind _ = _
      rw [ho ("offset", .none) (by simp [optionalKw, ownKw, normalizeKw, commonKw, defaultNoise])]; exact h_offset
    have g_base : Est.get ⟨⟨.cte, .nsb⟩, [dx, dy], (some dz), p⟩ "base" PyVal.toBase = some b := by
      show (p "base").bind _ = _
      rw [ho ("base", W.b0) (by simp [optionalKw, ownKw, normalizeKw, commonKw, defaultNoise])]; exact h_base
    refine result_vec ?_
    simp (maxSteps := 2000000) only [Est.vecVal, Est.cteVec, Option.bind_eq_bind, Option.bind_some, g_K, g_prop_time, g_step_size, g_src_hist_len, g_dest_hist_len, g_cond_hist_len, g_offset, g_base, hx, hy, Est.pair, hz, Est.te]
  obtain ⟨p, e, e', hr, ho⟩ := im_cte_eval W.vec a kw dx dy dz ha (by simp [requiredKw]) h4
  rw [e, e', hv p hr ho]
  exact ⟨rfl, rfl⟩

theorem e2e_vcte_kernel {W : World} {dx dy : PyData} {a : PyName} {kw : Kw} {dz : PyData} (ha : Names W.lower .cte a .kernel) 
    (h4 : Only ["bandwidth", "kernel", "workers", "prop_time", "step_size", "src_hist_len", "dest_hist_len", "cond_hist_len", "offset", "base", "seed"] kw)
    {h : PyArg} {kn : Kernel} {w : Int} {u : Option PyArg} {s : PyArg} {sh : PyArg} {dh : PyArg} {ch : PyArg} {o : Option PyArg} {b : Base} 
    (h_bandwidth : (kwOr kw "bandwidth" (.none)).toArg = some h)
    (h_kernel : PyVal.toKernel W.eig (kwOr kw "kernel" (.none)) = some kn)
    (h_workers : (kwOr kw "workers" (.int 1)).toInt = some w)
    (h_prop_time : (kwOr kw "prop_time" (.int 0)).toOptArg = some u)
    (h_step_size : (kwOr kw "step_size" (.int 1)).toArg = some s)
    (h_src_hist_len : (kwOr kw "src_hist_len" (.int 1)).toArg = some sh)
    (h_dest_hist_len : (kwOr kw "dest_hist_len" (.int 1)).toArg = some dh)
    (h_cond_hist_len : (kwOr kw "cond_hist_len" (.int 1)).toArg = some ch)
    (h_offset : (kwOr kw "offset" (.none)).toOptArg = some o)
    (h_base : (kwOr kw "base" (W.b0)).toBase = some b)
    {x y : List (List ℝ)} (hx : PyData.toRows dx = some x) (hy : PyData.toRows dy = some y) {z : List (List ℝ)} (hz : PyData.toRows dz = some z) :
    imCTE W.vec [dx, dy] a (.val dz) kw = kernelCTEVec x y (some z) { srcHist := sh, destHist := dh, step := s } ch u o { bandwidth := h, kernel := kn, workers := resolveWorkers W.cpu w } b ∧
      imTE W.vec [dx, dy] a (.val dz) kw = kernelCTEVec x y (some z) { srcHist := sh, destHist := dh, step := s } ch u o { bandwidth := h, kernel := kn, workers := resolveWorkers W.cpu w } b := by
  have hv : ∀ p : Kw, (∀ r ∈ requiredKw .cte .kernel, p r = kw r) →
      (∀ o ∈ optionalKw W.b0 ⟨.cte, .kernel⟩, p o.1 = some (kwOr kw o.1 o.2)) →
      Est.result W.vec ⟨⟨.cte, .kernel⟩, [dx, dy], (some dz), p⟩ = kernelCTEVec x y (some z) { srcHist := sh, destHist := dh, step := s } ch u o { bandwidth := h, kernel := kn, workers := resolveWorkers W.cpu w } b := by
    intro p hr ho
    have g_bandwidth : Est.get ⟨⟨.cte, .kernel⟩, [dx, dy], (some dz), p⟩ "bandwidth" PyVal.toArg = some h := by
      show (p "bandwidth").bind _ = _
      rw [ho ("bandwidth", .none) (by simp [optionalKw, ownKw, normalizeKw, commonKw, defaultNoise])]; exact h_bandwidth
    have g_kernel : Est.get ⟨⟨.cte, .kernel⟩, [dx, dy], (some dz), p⟩ "kernel" (PyVal.toKernel W.eig) = some kn := by
      show (p "kernel").bind _ = _
      rw [ho ("kernel", .none) (by simp [optionalKw, ownKw, normalizeKw, commonKw, defaultNoise])]; exact h_kernel
    have g_workers : Est.get ⟨⟨.cte, .kernel⟩, [dx, dy], (some dz), p⟩ "workers" PyVal.toInt = some w := by
      show (p "workers").bind _ = _
      rw [ho ("workers", .int 1) (by simp [optionalKw, ownKw, normalizeKw, commonKw, defaultNoise])]; exact h_workers
    have g_prop_time : Est.get ⟨⟨.cte, .kernel⟩, [dx, dy], (some dz), p⟩ "prop_time" PyVal.toOptArg = some u := by
      show (p "prop_time").bind _ = _
      rw [ho ("prop_time", .int 0) (by simp [optionalKw, ownKw, normalizeKw, commonKw, defaultNoise])]; exact h_prop_time
    have g_step_size : Est.get ⟨⟨.cte, .kernel⟩, [dx, dy], (some dz), p⟩ "step_size" PyVal.toArg = some s := by
      show (p "step_size").bind _ = _
      rw [ho ("step_size", .int 1) (by simp [optionalKw, ownKw, normalizeKw, commonKw, defaultNoise])]; exact h_step_size
    have g_src_hist_len : Est.get ⟨⟨.cte, .kernel⟩, [dx, dy], (some dz), p⟩ "src_hist_len" PyVal.toArg = some sh := by
      show (p "src_hist_len").bind _ = _
      rw [ho ("src_hist_len", .int 1) (by simp [optionalKw, ownKw, normalizeKw, commonKw, defaultNoise])]; exact h_src_hist_len
    have g_dest_hist_len : Est.get ⟨⟨.cte, .kernel⟩, [dx, dy], (some dz), p⟩ "dest_hist_len" PyVal.toArg = some dh := by
      show (p "dest_hist_len").bind _ = _
      rw [ho ("dest_hist_len", .int 1) (by simp [optionalKw, ownKw, normalizeKw, commonKw, defaultNoise])]; exact h_dest_hist_len
    have g_cond_hist_len : Est.get ⟨⟨.cte, .kernel⟩, [dx, dy], (some dz), p⟩ "cond_hist_len" PyVal.toArg = some ch := by
      show (p "cond_hist_len").bind _ = _
      rw [ho ("cond_hist_len", .int 1) (by simp [optionalKw, ownKw, normalizeKw, commonKw, defaultNoise])]; exact h_cond_hist_len
    have g_offset : Est.get ⟨⟨.cte, .kernel⟩, [dx, dy], (some dz), p⟩ "offset" PyVal.toOptArg = some o := by
      show (p "offset").bind _ = _
      rw [ho ("offset", .none) (by simp [optionalKw, ownKw, normalizeKw, commonKw, defaultNoise])]; exact h_offset
    have g_base : Est.get ⟨⟨.cte, .kernel⟩, [dx, dy], (some dz), p⟩ "base" PyVal.toBase = some b := by
      show (p "base").bind _ = _
      rw [ho ("base", W.b0) (by simp [optionalKw, ownKw, normalizeKw, commonKw, defaultNoise])]; exact h_base
    refine result_vec ?_
    simp (maxSteps := 2000000) only [Est.vecVal, Est.cteVec, Option.bind_eq_bind, Option.bind_some, g_bandwidth, g_kernel, g_workers, g_prop_time, g_step_size, g_src_hist_len, g_dest_hist_len, g_cond_hist_len, g_offset, g_base, hx, hy, Est.pair, hz, Est.kde, Est.te]
  obtain ⟨p, e, e', hr, ho⟩ := im_cte_eval W.vec a kw dx dy dz ha (by simp [requiredKw]) h4
  rw [e, e', hv p hr ho]
  exact ⟨rfl, rfl⟩

theorem e2e_vcte_metric {W : World} {dx dy : PyData} {a : PyName} {kw : Kw} {dz : PyData} (ha : Names W.lower .cte a .metric) 
    (h4 : Only ["k", "ksg_id", "noise_level", "minkowski_p", "prop_time", "step_size", "src_hist_len", "dest_hist_len", "cond_hist_len", "offset", "base", "seed"] kw)
    {k : Nat} {i : Int} {v : ℝ} {mp : PNorm} {u : Option PyArg} {s : PyArg} {sh : PyArg} {dh : PyArg} {ch : PyArg} {o : Option PyArg} {b : Base} 
    (h_k : (kwOr kw "k" (.int 4)).toNat = some k)
    (h_ksg_id : (kwOr kw "ksg_id" (.int 1)).toInt = some i)
    (h_noise_level : (kwOr kw "noise_level" (.num (1 / 10 ^ 8))).toNoise = some v)
    (h_minkowski_p : (kwOr kw "minkowski_p" (.inf)).toPNorm = some mp)
    (h_prop_time : (kwOr kw "prop_time" (.int 0)).toOptArg = some u)
    (h_step_size : (kwOr kw "step_size" (.int 1)).toArg = some s)
    (h_src_hist_len : (kwOr kw "src_hist_len" (.int 1)).toArg = some sh)
    (h_dest_hist_len : (kwOr kw "dest_hist_len" (.int 1)).toArg = some dh)
    (h_cond_hist_len : (kwOr kw "cond_hist_len" (.int 1)).toArg = some ch)
    (h_offset : (kwOr kw "offset" (.none)).toOptArg = some o)
    (h_base : (kwOr kw "base" (W.b0)).toBase = some b)
    {x y : List (List ℝ)} (hx : PyData.toRows dx = some x) (hy : PyData.toRows dy = some y) {z : List (List ℝ)} (hz : PyData.toRows dz = some z) :
    imCTE W.vec [dx, dy] a (.val dz) kw = ksgCTEVec x y (some z) { srcHist := sh, destHist := dh, step := s } ch u o { k := k, ksgId := i, p := mp } (W.noise2 v 0) (W.noise2 v 1) (W.noise2 v 2) b ∧
      imTE W.vec [dx, dy] a (.val dz) kw = ksgCTEVec x y (some z) { srcHist := sh, destHist := dh, step := s } ch u o { k := k, ksgId := i, p := mp } (W.noise2 v 0) (W.noise2 v 1) (W.noise2 v 2) b := by
  have hv : ∀ p : Kw, (∀ r ∈ requiredKw .cte .metric, p r = kw r) →
      (∀ o ∈ optionalKw W.b0 ⟨.cte, .metric⟩, p o.1 = some (kwOr kw o.1 o.2)) →
      Est.result W.vec ⟨⟨.cte, .metric⟩, [dx, dy], (some dz), p⟩ = ksgCTEVec x y (some z) { srcHist := sh, destHist := dh, step := s } ch u o { k := k, ksgId := i, p := mp } (W.noise2 v 0) (W.noise2 v 1) (W.noise2 v 2) b := by
    intro p hr ho
    have g_k : Est.get ⟨⟨.cte, .metric⟩, [dx, dy], (some dz), p⟩ "k" PyVal.toNat = some k := by
      show (p "k").bind _ = _
      rw [ho ("k", .int 4) (by simp [optionalKw, ownKw, normalizeKw, commonKw, defaultNoise])]; exact h_k
    have g_ksg_id : Est.get ⟨⟨.cte, .metric⟩, [dx, dy], (some dz), p⟩ "ksg_id" PyVal.toInt = some i := by
      show (p "ksg_id").bind _ = _
      rw [ho ("ksg_id", .int 1) (by simp [optionalKw, ownKw, normalizeKw, commonKw, defaultNoise])]; exact h_ksg_id
    have g_noise_level : Est.get ⟨⟨.cte, .metric⟩, [dx, dy], (some dz), p⟩ "noise_level" PyVal.toNoise = some v := by
      show (p "noise_level").bind _ = _
      rw [ho ("noise_level", .num (1 / 10 ^ 8)) (by simp [optionalKw, ownKw, normalizeKw, commonKw, defaultNoise])]; exact h_noise_level
    have g_minkowski_p : Est.get ⟨⟨.cte, .metric⟩, [dx, dy], (some dz), p⟩ "minkowski_p" PyVal.toPNorm = some mp := by
      show (p "minkowski_p").bind _ = _
      rw [ho ("minkowski_p", .inf) (by simp [optionalKw, ownKw, normalizeKw, commonKw, defaultNoise])]; exact h_minkowski_p
    have g_prop_time : Est.get ⟨⟨.cte, .metric⟩, [dx, dy], (some dz), p⟩ "prop_time" PyVal.toOptArg = some u := by
      show (p "prop_time").bind _ = _
      rw [ho ("prop_time", .int 0) (by simp [optionalKw, ownKw, normalizeKw, commonKw, defaultNoise])]; exact h_prop_time
    have g_step_size : Est.get ⟨⟨.cte, .metric⟩, [dx, dy], (some dz), p⟩ "step_size" PyVal.toArg = some s := by
      show (p "step_size").bind _ = _
      rw [ho ("step_size", .int 1) (by simp [optionalKw, ownKw, normalizeKw, commonKw, defaultNoise])]; exact h_step_size
    have g_src_hist_len : Est.get ⟨⟨.cte, .metric⟩, [dx, dy], (some dz), p⟩ "src_hist_len" PyVal.toArg = some sh := by
      show (p "src_hist_len").bind _ = _
      rw [ho ("src_hist_len", .int 1) (by simp [optionalKw, ownKw, normalizeKw, commonKw, defaultNoise])]; exact h_src_hist_len
    have g_dest_hist_len : Est.get ⟨⟨.cte, .metric⟩, [dx, dy], (some dz), p⟩ "dest_hist_len" PyVal.toArg = some dh := by
      show (p "dest_hist_len").bind _ = _
      rw [ho ("dest_hist_len", .int 1) (by simp [optionalKw, ownKw, normalizeKw, commonKw, defaultNoise])]; exact h_dest_hist_len
    have g_cond_hist_len : Est.get ⟨⟨.cte, .metric⟩, [dx, dy], (some dz), p⟩ "cond_hist_len" PyVal.toArg = some ch := by
      show (p "cond_hist_len").bind _ = _
      rw [ho ("cond_hist_len", .int 1) (by simp [optionalKw, ownKw, normalizeKw, commonKw, defaultNoise])]; exact h_cond_hist_len
    have g_offset : Est.get ⟨⟨.cte, .metric⟩, [dx, dy], (some dz), p⟩ "offset" PyVal.toOptArg = some o := by
      show (p "offset").bind _ = _
      rw [ho ("offset", .none) (by simp [optionalKw, ownKw, normalizeKw, commonKw, defaultNoise])]; exact h_offset
    have g_base : Est.get ⟨⟨.cte, .metric⟩, [dx, dy], (some dz), p⟩ "base" PyVal.toBase = some b := by
      show (p "base").bind _ = _
      rw [ho ("base", W.b0) (by simp [optionalKw, ownKw, normalizeKw, commonKw, defaultNoise])]; exact h_base
    refine result_vec ?_
    simp (maxSteps := 2000000) only [Est.vecVal, Est.cteVec, Option.bind_eq_bind, Option.bind_some, g_k, g_ksg_id, g_noise_level, g_minkowski_p, g_prop_time, g_step_size, g_src_hist_len, g_dest_hist_len, g_cond_hist_len, g_offset, g_base, hx, hy, Est.pair, hz, Est.ksg, Est.te]
  obtain ⟨p, e, e', hr, ho⟩ := im_cte_eval W.vec a kw dx dy dz ha (by simp [requiredKw]) h4
  rw [e, e', hv p hr ho]
  exact ⟨rfl, rfl⟩

theorem e2e_vcte_renyi {W : World} {dx dy : PyData} {a : PyName} {kw : Kw} {dz : PyData} (ha : Names W.lower .cte a .renyi) 
    (h4 : Only ["k", "alpha", "noise_level", "prop_time", "step_size", "src_hist_len", "dest_hist_len", "cond_hist_len", "offset", "base", "seed"] kw)
    {k : PyArg} {q : PyArg} {v : ℝ} {u : Option PyArg} {s : PyArg} {sh : PyArg} {dh : PyArg} {ch : PyArg} {o : Option PyArg} {b : Base} 
    (h_k : (kwOr kw "k" (.int 4)).toArg = some k)
    (h_alpha : (kwOr kw "alpha" (.none)).toArg = some q)
    (h_noise_level : (kwOr kw "noise_level" (.num (1 / 10 ^ 8))).toNoise = some v)
    (h_prop_time : (kwOr kw "prop_time" (.int 0)).toOptArg = some u)
    (h_step_size : (kwOr kw "step_size" (.int 1)).toArg = some s)
    (h_src_hist_len : (kwOr kw "src_hist_len" (.int 1)).toArg = some sh)
    (h_dest_hist_len : (kwOr kw "dest_hist_len" (.int 1)).toArg = some dh)
    (h_cond_hist_len : (kwOr kw "cond_hist_len" (.int 1)).toArg = some ch)
    (h_offset : (kwOr kw "offset" (.none)).toOptArg = some o)
    (h_base : (kwOr kw "base" (W.b0)).toBase = some b)
    {x y : List (List ℝ)} (hx : PyData.toRows dx = some x) (hy : PyData.toRows dy = some y) {z : List (List ℝ)} (hz : PyData.toRows dz = some z) :
    imCTE W.vec [dx, dy] a (.val dz) kw = expCTEVec renyiVal x y (some z) { srcHist := sh, destHist := dh, step := s } ch u o k q (W.noise2 v 0) (W.noise2 v 1) (W.noise2 v 2) b ∧
      imTE W.vec [dx, dy] a (.val dz) kw = expCTEVec renyiVal x y (some z) { srcHist := sh, destHist := dh, step := s } ch u o k q (W.noise2 v 0) (W.noise2 v 1) (W.noise2 v 2) b := by
  have hv : ∀ p : Kw, (∀ r ∈ requiredKw .cte .renyi, p r = kw r) →
      (∀ o ∈ optionalKw W.b0 ⟨.cte, .renyi⟩, p o.1 = some (kwOr kw o.1 o.2)) →
      Est.result W.vec ⟨⟨.cte, .renyi⟩, [dx, dy], (some dz), p⟩ = expCTEVec renyiVal x y (some z) { srcHist := sh, destHist := dh, step := s } ch u o k q (W.noise2 v 0) (W.noise2 v 1) (W.noise2 v 2) b := by
    intro p hr ho
    have g_k : Est.get ⟨⟨.cte, .renyi⟩, [dx, dy], (some dz), p⟩ "k" PyVal.toArg = some k := by
      show (p "k").bind _ = _
      rw [ho ("k", .int 4) (by simp [optionalKw, ownKw, normalizeKw, commonKw, defaultNoise])]; exact h_k
    have g_alpha : Est.get ⟨⟨.cte, .renyi⟩, [dx, dy], (some dz), p⟩ "alpha" PyVal.toArg = some q := by
      show (p "alpha").bind _ = _
      rw [ho ("alpha", .none) (by simp [optionalKw, ownKw, normalizeKw, commonKw, defaultNoise])]; exact h_alpha
    have g_noise_level : Est.get ⟨⟨.cte, .renyi⟩, [dx, dy], (some dz), p⟩ "noise_level" PyVal.toNoise = some v := by
      show (p "noise_level").bind _ = _
      rw [ho ("noise_level", .num (1 / 10 ^ 8)) (by simp [optionalKw, ownKw, normalizeKw, commonKw, defaultNoise])]; exact h_noise_level
    have g_prop_time : Est.get ⟨⟨.cte, .renyi⟩, [dx, dy], (some dz), p⟩ "prop_time" PyVal.toOptArg = some u := by
      show (p "prop_time").bind _ = _
      rw [ho ("prop_time", .int 0) (by simp [optionalKw, ownKw, normalizeKw, commonKw, defaultNoise])]; exact h_prop_time
    have g_step_size : Est.get ⟨⟨.cte, .renyi⟩, [dx, dy], (some dz), p⟩ "step_size" PyVal.toArg = some s := by
      show (p "step_size").bind _ = _
      rw [ho ("step_size", .int 1) (by simp [optionalKw, ownKw, normalizeKw, commonKw, defaultNoise])]; exact h_step_size
    have g_src_hist_len : Est.get ⟨⟨.cte, .renyi⟩, [dx, dy], (some dz), p⟩ "src_hist_len" PyVal.toArg = some sh := by
      show (p "src_hist_len").bind _ = _
      rw [ho ("src_hist_len", .int 1) (by simp [optionalKw, ownKw, normalizeKw, commonKw, defaultNoise])]; exact h_src_hist_len
    have g_dest_hist_len : Est.get ⟨⟨.cte, .renyi⟩, [dx, dy], (some dz), p⟩ "dest_hist_len" PyVal.toArg = some dh := by
      show (p "dest_hist_len").bind _ = _
      rw [ho ("dest_hist_len", .int 1) (by simp [optionalKw, ownKw, normalizeKw, commonKw, defaultNoise])]; exact h_dest_hist_len
    have g_cond_hist_len : Est.get ⟨⟨.cte, .renyi⟩, [dx, dy], (some dz), p⟩ "cond_hist_len" PyVal.toArg = some ch := by
      show (p "cond_hist_len").bind _ = _
      rw [ho ("cond_hist_len", .int 1) (by simp [optionalKw, ownKw, normalizeKw, commonKw, defaultNoise])]; exact h_cond_hist_len
    have g_offset : Est.get ⟨⟨.cte, .renyi⟩, [dx, dy], (some dz), p⟩ "offset" PyVal.toOptArg = some o := by
      show (p "offset").bind _ = _
      rw [ho ("offset", .none) (by simp [optionalKw, ownKw, normalizeKw, commonKw, defaultNoise])]; exact h_offset
    have g_base : Est.get ⟨⟨.cte, .renyi⟩, [dx, dy], (some dz), p⟩ "base" PyVal.toBase = some b := by
      show (p "base").bind _ = _
      rw [ho ("base", W.b0) (by simp [optionalKw, ownKw, normalizeKw, commonKw, defaultNoise])]; exact h_base
    refine result_vec ?_
    simp (maxSteps := 2000000) only [Est.vecVal, Est.cteVec, Option.bind_eq_bind, Option.bind_some, g_k, g_alpha, g_noise_level, g_prop_time, g_step_size, g_src_hist_len, g_dest_hist_len, g_cond_hist_len, g_offset, g_base, hx, hy, Est.pair, hz, Est.te, expFam]
  obtain ⟨p, e, e', hr, ho⟩ := im_cte_eval W.vec a kw dx dy dz ha (by simp [requiredKw]) h4
  rw [e, e', hv p hr ho]
  exact ⟨rfl, rfl⟩

theorem e2e_vcte_tsallis {W : World} {dx dy : PyData} {a : PyName} {kw : Kw} {dz : PyData} (ha : Names W.lower .cte a .tsallis) 
    (h4 : Only ["k", "q", "noise_level", "prop_time", "step_size", "src_hist_len", "dest_hist_len", "cond_hist_len", "offset", "base", "seed"] kw)
    {k : PyArg} {q : PyArg} {v : ℝ} {u : Option PyArg} {s : PyArg} {sh : PyArg} {dh : PyArg} {ch : PyArg} {o : Option PyArg} {b : Base} 
    (h_k : (kwOr kw "k" (.int 4)).toArg = some k)
    (h_q : (kwOr kw "q" (.none)).toArg = some q)
    (h_noise_level : (kwOr kw "noise_level" (.num (1 / 10 ^ 8))).toNoise = some v)
    (h_prop_time : (kwOr kw "prop_time" (.int 0)).toOptArg = some u)
    (h_step_size : (kwOr kw "step_size" (.int 1)).toArg = some s)
    (h_src_hist_len : (kwOr kw "src_hist_len" (.int 1)).toArg = some sh)
    (h_dest_hist_len : (kwOr kw "dest_hist_len" (.int 1)).toArg = some dh)
    (h_cond_hist_len : (kwOr kw "cond_hist_len" (.int 1)).toArg = some ch)
    (h_offset : (kwOr kw "offset" (.none)).toOptArg = some o)
    (h_base : (kwOr kw "base" (W.b0)).toBase = some b)
    {x y : List (List ℝ)} (hx : PyData.toRows dx = some x) (hy : PyData.toRows dy = some y) {z : List (List ℝ)} (hz : PyData.toRows dz = some z) :
    imCTE W.vec [dx, dy] a (.val dz) kw = expCTEVec tsallisVal x y (some z) { srcHist := sh, destHist := dh, step := s } ch u o k q (W.noise2 v 0) (W.noise2 v 1) (W.noise2 v 2) b ∧
      imTE W.vec [dx, dy] a (.val dz) kw = expCTEVec tsallisVal x y (some z) { srcHist := sh, destHist := dh, step := s } ch u o k q (W.noise2 v 0) (W.noise2 v 1) (W.noise2 v 2) b := by
  have hv : ∀ p : Kw, (∀ r ∈ requiredKw .cte .tsallis, p r = kw r) →
      (∀ o ∈ optionalKw W.b0 ⟨.cte, .tsallis⟩, p o.1 = some (kwOr kw o.1 o.2)) →
      Est.result W.vec ⟨⟨.cte, .tsallis⟩, [dx, dy], (some dz), p⟩ = expCTEVec tsallisVal x y (some z) { srcHist := sh, destHist := dh, step := s } ch u o k q (W.noise2 v 0) (W.noise2 v 1) (W.noise2 v 2) b := by
    intro p hr ho
    have g_k : Est.get ⟨⟨.cte, .tsallis⟩, [dx, dy], (some dz), p⟩ "k" PyVal.toArg = some k := by
      show (p "k").bind _ = _
      rw [ho ("k", .int 4) (by simp [optionalKw, ownKw, normalizeKw, commonKw, defaultNoise])]; exact h_k
    have g_q : Est.get ⟨⟨.cte, .tsallis⟩, [dx, dy], (some dz), p⟩ "q" PyVal.toArg = some q := by
      show (p "q").bind _ = _
      rw [ho ("q", .none) (by simp [optionalKw, ownKw, normalizeKw, commonKw, defaultNoise])]; exact h_q
    have g_noise_level : Est.get ⟨⟨.cte, .tsallis⟩, [dx, dy], (some dz), p⟩ "noise_level" PyVal.toNoise = some v := by
      show (p "noise_level").bind _ = _
      rw [ho ("noise_level", .num (1 / 10 ^ 8)) (by simp [optionalKw, ownKw, normalizeKw, commonKw, defaultNoise])]; exact h_noise_level
    have g_prop_time : Est.get ⟨⟨.cte, .tsallis⟩, [dx, dy], (some dz), p⟩ "prop_time" PyVal.toOptArg = some u := by
      show (p "prop_time").bind _ = _
      rw [ho ("prop_time", .int 0) (by simp [optionalKw, ownKw, normalizeKw, commonKw, defaultNoise])]; exact h_prop_time
    have g_step_size : Est.get ⟨⟨.cte, .tsallis⟩, [dx, dy], (some dz), p⟩ "step_size" PyVal.toArg = some s := by
      show (p "step_size").bind _ = _
      rw [ho ("step_size", .int 1) (by simp [optionalKw, ownKw, normalizeKw, commonKw, defaultNoise])]; exact h_step_size
    have g_src_hist_len : Est.get ⟨⟨.cte, .tsallis⟩, [dx, dy], (some dz), p⟩ "src_hist_len" PyVal.toArg = some sh := by
      show (p "src_hist_len").bind _ = _
      rw [ho ("src_hist_len", .int 1) (by simp [optionalKw, ownKw, normalizeKw, commonKw, defaultNoise])]; exact h_src_hist_len
    have g_dest_hist_len : Est.get ⟨⟨.cte, .tsallis⟩, [dx, dy], (some dz), p⟩ "dest_hist_len" PyVal.toArg = some dh := by
      show (p "dest_hist_len").bind _ = _
      rw [ho ("dest_hist_len", .int 1) (by simp [optionalKw, ownKw, normalizeKw, commonKw, defaultNoise])]; exact h_dest_hist_len
    have g_cond_hist_len : Est.get ⟨⟨.cte, .tsallis⟩, [dx, dy], (some dz), p⟩ "cond_hist_len" PyVal.toArg = some ch := by
      show (p "cond_hist_len").bind _ = _
      rw [ho ("cond_hist_len", .int 1) (by simp [optionalKw, ownKw, normalizeKw, commonKw, defaultNoise])]; exact h_cond_hist_len
    have g_offset : Est.get ⟨⟨.cte, .tsallis⟩, [dx, dy], (some dz), p⟩ "offset" PyVal.toOptArg = some o := by
      show (p "offset").bind _ = _
      rw [ho ("offset", .none) (by simp [optionalKw, ownKw, normalizeKw, commonKw, defaultNoise])]; exact h_offset
    have g_base : Est.get ⟨⟨.cte, .tsallis⟩, [dx, dy], (some dz), p⟩ "base" PyVal.toBase = some b := by
      show (p "base").bind _ = _
      rw [ho ("base", W.b0) (by simp [optionalKw, ownKw, normalizeKw, commonKw, defaultNoise])]; exact h_base
    refine result_vec ?_
    simp (maxSteps := 2000000) only [Est.vecVal, Est.cteVec, Option.bind_eq_bind, Option.bind_some, g_k, g_q, g_noise_level, g_prop_time, g_step_size, g_src_hist_len, g_dest_hist_len, g_cond_hist_len, g_offset, g_base, hx, hy, Est.pair, hz, Est.te, expFam]
  obtain ⟨p, e, e', hr, ho⟩ := im_cte_eval W.vec a kw dx dy dz ha (by simp [requiredKw]) h4
  rw [e, e', hv p hr ho]
  exact ⟨rfl, rfl⟩

end Verif
