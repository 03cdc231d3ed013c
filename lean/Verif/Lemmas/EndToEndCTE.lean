import Verif.Lemmas.EndToEnd

/-!
# Lemmas: what each public call evaluates, estimator by estimator (CTE)

Generated by `tools/gen_e2e.py`.  Each lemma: with only accepted keyword arguments, the value of the public function is
the model function of the estimator, at the given keyword arguments or the documented defaults.
-/

set_option linter.unusedSimpArgs false
set_option linter.unusedVariables false

namespace Verif

theorem e2e_cte_discrete {W : World} {dx dy : PyData} {a : PyName} {kw : Kw} {dz : PyData} (ha : Names W.lower .cte a .discrete) 
    (h4 : Only ["prop_time", "step_size", "src_hist_len", "dest_hist_len", "cond_hist_len", "offset", "base", "seed"] kw)
    {u : Option PyArg} {s : PyArg} {sh : PyArg} {dh : PyArg} {ch : PyArg} {o : Option PyArg} {b : Base} 
    (h_prop_time : (kwOr kw "prop_time" (.int 0)).toOptArg = some u)
    (h_step_size : (kwOr kw "step_size" (.int 1)).toArg = some s)
    (h_src_hist_len : (kwOr kw "src_hist_len" (.int 1)).toArg = some sh)
    (h_dest_hist_len : (kwOr kw "dest_hist_len" (.int 1)).toArg = some dh)
    (h_cond_hist_len : (kwOr kw "cond_hist_len" (.int 1)).toArg = some ch)
    (h_offset : (kwOr kw "offset" (.none)).toOptArg = some o)
    (h_base : (kwOr kw "base" (W.b0)).toBase = some b)
    {x y : List Int} (hx : PyData.toInts dx = some x) (hy : PyData.toInts dy = some y) {z : List Int} (hz : PyData.toInts dz = some z) :
    imCTE W [dx, dy] a (.val dz) kw = discreteCTE x y (some z) { srcHist := sh, destHist := dh, step := s } ch u o b false ∧
      imTE W [dx, dy] a (.val dz) kw = discreteCTE x y (some z) { srcHist := sh, destHist := dh, step := s } ch u o b false := by
  have hv : ∀ p : Kw, (∀ r ∈ requiredKw .cte .discrete, p r = kw r) →
      (∀ o ∈ optionalKw W.b0 ⟨.cte, .discrete⟩, p o.1 = some (kwOr kw o.1 o.2)) →
      Est.result W ⟨⟨.cte, .discrete⟩, [dx, dy], (some dz), p⟩ = discreteCTE x y (some z) { srcHist := sh, destHist := dh, step := s } ch u o b false := by
    intro p hr ho
    have g_prop_time : Est.get ⟨⟨.cte, .discrete⟩, [dx, dy], (some dz), p⟩ "prop_time" PyVal.toOptArg = some u := by
      show (p "prop_time").bind _ = _
      rw [ho ("prop_time", .int 0) (by simp [optionalKw, ownKw, normalizeKw, commonKw, defaultNoise])]; exact h_prop_time
    have g_step_size : Est.get ⟨⟨.cte, .discrete⟩, [dx, dy], (some dz), p⟩ "step_size" PyVal.toArg = some s := by
      show (p "step_size").bind _ = _
      rw [ho ("step_size", .int 1) (by simp [optionalKw, ownKw, normalizeKw, commonKw, defaultNoise])]; exact h_step_size
    have g_src_hist_len : Est.get ⟨⟨.cte, .discrete⟩, [dx, dy], (some dz), p⟩ "src_hist_len" PyVal.toArg = some sh := by
      show (p "src_hist_len").bind _ = _
      rw [ho ("src_hist_len", .int 1) (by simp [optionalKw, ownKw, normalizeKw, commonKw, defaultNoise])]; exact h_src_hist_len
    have g_dest_hist_len : Est.get ⟨⟨.cte, .discrete⟩, [dx, dy], (some dz), p⟩ "dest_hist_len" PyVal.toArg = some dh := by
      show (p "dest_hist_len").bind _ = _
      rw [ho ("dest_hist_len", .int 1) (by simp [optionalKw, ownKw, normalizeKw, commonKw, defaultNoise])]; exact h_dest_hist_len
    have g_cond_hist_len : Est.get ⟨⟨.cte, .discrete⟩, [dx, dy], (some dz), p⟩ "cond_hist_len" PyVal.toArg = some ch := by
      show (p "cond_hist_len").bind _ = _
      rw [ho ("cond_hist_len", .int 1) (by simp [optionalKw, ownKw, normalizeKw, commonKw, defaultNoise])]; exact h_cond_hist_len
    have g_offset : Est.get ⟨⟨.cte, .discrete⟩, [dx, dy], (some dz), p⟩ "offset" PyVal.toOptArg = some o := by
      show (p "offset").bind _ = _
      rw [ho ("offset", .none) (by simp [optionalKw, ownKw, normalizeKw, commonKw, defaultNoise])]; exact h_offset
    have g_base : Est.get ⟨⟨.cte, .discrete⟩, [dx, dy], (some dz), p⟩ "base" PyVal.toBase = some b := by
      show (p "base").bind _ = _
      rw [ho ("base", W.b0) (by simp [optionalKw, ownKw, normalizeKw, commonKw, defaultNoise])]; exact h_base
    simp only [Est.result, Est.cteVal, bind, Option.bind, Option.getD_some, g_prop_time, g_step_size, g_src_hist_len, g_dest_hist_len, g_cond_hist_len, g_offset, g_base, hx, hy, Est.pair, hz, Est.te]
  obtain ⟨p, e, e', hr, ho⟩ := im_cte_eval W a kw dx dy dz ha (by simp [requiredKw]) h4
  rw [e, e', hv p hr ho]
  exact ⟨rfl, rfl⟩

theorem e2e_cte_millerMadow {W : World} {dx dy : PyData} {a : PyName} {kw : Kw} {dz : PyData} (ha : Names W.lower .cte a .millerMadow) 
    (h4 : Only ["prop_time", "step_size", "src_hist_len", "dest_hist_len", "cond_hist_len", "offset", "base", "seed"] kw)
    {u : Option PyArg} {s : PyArg} {sh : PyArg} {dh : PyArg} {ch : PyArg} {o : Option PyArg} {b : Base} 
    (h_prop_time : (kwOr kw "prop_time" (.int 0)).toOptArg = some u)
    (h_step_size : (kwOr kw "step_size" (.int 1)).toArg = some s)
    (h_src_hist_len : (kwOr kw "src_hist_len" (.int 1)).toArg = some sh)
    (h_dest_hist_len : (kwOr kw "dest_hist_len" (.int 1)).toArg = some dh)
    (h_cond_hist_len : (kwOr kw "cond_hist_len" (.int 1)).toArg = some ch)
    (h_offset : (kwOr kw "offset" (.none)).toOptArg = some o)
    (h_base : (kwOr kw "base" (W.b0)).toBase = some b)
    {x y : List Int} (hx : PyData.toInts dx = some x) (hy : PyData.toInts dy = some y) {z : List Int} (hz : PyData.toInts dz = some z) :
    imCTE W [dx, dy] a (.val dz) kw = discreteCTE x y (some z) { srcHist := sh, destHist := dh, step := s } ch u o b true ∧
      imTE W [dx, dy] a (.val dz) kw = discreteCTE x y (some z) { srcHist := sh, destHist := dh, step := s } ch u o b true := by
  have hv : ∀ p : Kw, (∀ r ∈ requiredKw .cte .millerMadow, p r = kw r) →
      (∀ o ∈ optionalKw W.b0 ⟨.cte, .millerMadow⟩, p o.1 = some (kwOr kw o.1 o.2)) →
      Est.result W ⟨⟨.cte, .millerMadow⟩, [dx, dy], (some dz), p⟩ = discreteCTE x y (some z) { srcHist := sh, destHist := dh, step := s } ch u o b true := by
    intro p hr ho
    have g_prop_time : Est.get ⟨⟨.cte, .millerMadow⟩, [dx, dy], (some dz), p⟩ "prop_time" PyVal.toOptArg = some u := by
      show (p "prop_time").bind _ = _
      rw [ho ("prop_time", .int 0) (by simp [optionalKw, ownKw, normalizeKw, commonKw, defaultNoise])]; exact h_prop_time
    have g_step_size : Est.get ⟨⟨.cte, .millerMadow⟩, [dx, dy], (some dz), p⟩ "step_size" PyVal.toArg = some s := by
      show (p "step_size").bind _ = _
      rw [ho ("step_size", .int 1) (by simp [optionalKw, ownKw, normalizeKw, commonKw, defaultNoise])]; exact h_step_size
    have g_src_hist_len : Est.get ⟨⟨.cte, .millerMadow⟩, [dx, dy], (some dz), p⟩ "src_hist_len" PyVal.toArg = some sh := by
      show (p "src_hist_len").bind _ = _
      rw [ho ("src_hist_len", .int 1) (by simp [optionalKw, ownKw, normalizeKw, commonKw, defaultNoise])]; exact h_src_hist_len
    have g_dest_hist_len : Est.get ⟨⟨.cte, .millerMadow⟩, [dx, dy], (some dz), p⟩ "dest_hist_len" PyVal.toArg = some dh := by
      show (p "dest_hist_len").bind _ = _
      rw [ho ("dest_hist_len", .int 1) (by simp [optionalKw, ownKw, normalizeKw, commonKw, defaultNoise])]; exact h_dest_hist_len
    have g_cond_hist_len : Est.get ⟨⟨.cte, .millerMadow⟩, [dx, dy], (some dz), p⟩ "cond_hist_len" PyVal.toArg = some ch := by
      show (p "cond_hist_len").bind _ = _
      rw [ho ("cond_hist_len", .int 1) (by simp [optionalKw, ownKw, normalizeKw, commonKw, defaultNoise])]; exact h_cond_hist_len
    have g_offset : Est.get ⟨⟨.cte, .millerMadow⟩, [dx, dy], (some dz), p⟩ "offset" PyVal.toOptArg = some o := by
      show (p "offset").bind _ = _
      rw [ho ("offset", .none) (by simp [optionalKw, ownKw, normalizeKw, commonKw, defaultNoise])]; exact h_offset
    have g_base : Est.get ⟨⟨.cte, .millerMadow⟩, [dx, dy], (some dz), p⟩ "base" PyVal.toBase = some b := by
      show (p "base").bind _ = _
      rw [ho ("base", W.b0) (by simp [optionalKw, ownKw, normalizeKw, commonKw, defaultNoise])]; exact h_base
    simp only [Est.result, Est.cteVal, bind, Option.bind, Option.getD_some, g_prop_time, g_step_size, g_src_hist_len, g_dest_hist_len, g_cond_hist_len, g_offset, g_base, hx, hy, Est.pair, hz, Est.te]
  obtain ⟨p, e, e', hr, ho⟩ := im_cte_eval W a kw dx dy dz ha (by simp [requiredKw]) h4
  rw [e, e', hv p hr ho]
  exact ⟨rfl, rfl⟩

theorem e2e_cte_grassberger {W : World} {dx dy : PyData} {a : PyName} {kw : Kw} {dz : PyData} (ha : Names W.lower .cte a .grassberger) 
    (h4 : Only ["prop_time", "step_size", "src_hist_len", "dest_hist_len", "cond_hist_len", "offset", "base", "seed"] kw)
    {u : Option PyArg} {s : PyArg} {sh : PyArg} {dh : PyArg} {ch : PyArg} {o : Option PyArg} {b : Base} 
    (h_prop_time : (kwOr kw "prop_time" (.int 0)).toOptArg = some u)
    (h_step_size : (kwOr kw "step_size" (.int 1)).toArg = some s)
    (h_src_hist_len : (kwOr kw "src_hist_len" (.int 1)).toArg = some sh)
    (h_dest_hist_len : (kwOr kw "dest_hist_len" (.int 1)).toArg = some dh)
    (h_cond_hist_len : (kwOr kw "cond_hist_len" (.int 1)).toArg = some ch)
    (h_offset : (kwOr kw "offset" (.none)).toOptArg = some o)
    (h_base : (kwOr kw "base" (W.b0)).toBase = some b)
    {x y : List Int} (hx : PyData.toInts dx = some x) (hy : PyData.toInts dy = some y) {z : List Int} (hz : PyData.toInts dz = some z) :
    imCTE W [dx, dy] a (.val dz) kw = biasCTE .grassberger x y (some z) { srcHist := sh, destHist := dh, step := s } ch u o b ∧
      imTE W [dx, dy] a (.val dz) kw = biasCTE .grassberger x y (some z) { srcHist := sh, destHist := dh, step := s } ch u o b := by
  have hv : ∀ p : Kw, (∀ r ∈ requiredKw .cte .grassberger, p r = kw r) →
      (∀ o ∈ optionalKw W.b0 ⟨.cte, .grassberger⟩, p o.1 = some (kwOr kw o.1 o.2)) →
      Est.result W ⟨⟨.cte, .grassberger⟩, [dx, dy], (some dz), p⟩ = biasCTE .grassberger x y (some z) { srcHist := sh, destHist := dh, step := s } ch u o b := by
    intro p hr ho
    have g_prop_time : Est.get ⟨⟨.cte, .grassberger⟩, [dx, dy], (some dz), p⟩ "prop_time" PyVal.toOptArg = some u := by
      show (p "prop_time").bind _ = _
      rw [ho ("prop_time", .int 0) (by simp [optionalKw, ownKw, normalizeKw, commonKw, defaultNoise])]; exact h_prop_time
    have g_step_size : Est.get ⟨⟨.cte, .grassberger⟩, [dx, dy], (some dz), p⟩ "step_size" PyVal.toArg = some s := by
      show (p "step_size").bind _ = _
      rw [ho ("step_size", .int 1) (by simp [optionalKw, ownKw, normalizeKw, commonKw, defaultNoise])]; exact h_step_size
    have g_src_hist_len : Est.get ⟨⟨.cte, .grassberger⟩, [dx, dy], (some dz), p⟩ "src_hist_len" PyVal.toArg = some sh := by
      show (p "src_hist_len").bind _ = _
      rw [ho ("src_hist_len", .int 1) (by simp [optionalKw, ownKw, normalizeKw, commonKw, defaultNoise])]; exact h_src_hist_len
    have g_dest_hist_len : Est.get ⟨⟨.cte, .grassberger⟩, [dx, dy], (some dz), p⟩ "dest_hist_len" PyVal.toArg = some dh := by
      show (p "dest_hist_len").bind _ = _
      rw [ho ("dest_hist_len", .int 1) (by simp [optionalKw, ownKw, normalizeKw, commonKw, defaultNoise])]; exact h_dest_hist_len
    have g_cond_hist_len : Est.get ⟨⟨.cte, .grassberger⟩, [dx, dy], (some dz), p⟩ "cond_hist_len" PyVal.toArg = some ch := by
      show (p "cond_hist_len").bind _ = _
      rw [ho ("cond_hist_len", .int 1) (by simp [optionalKw, ownKw, normalizeKw, commonKw, defaultNoise])]; exact h_cond_hist_len
    have g_offset : Est.get ⟨⟨.cte, .grassberger⟩, [dx, dy], (some dz), p⟩ "offset" PyVal.toOptArg = some o := by
      show (p "offset").bind _ = _
      rw [ho ("offset", .none) (by simp [optionalKw, ownKw, normalizeKw, commonKw, defaultNoise])]; exact h_offset
    have g_base : Est.get ⟨⟨.cte, .grassberger⟩, [dx, dy], (some dz), p⟩ "base" PyVal.toBase = some b := by
      show (p "base").bind _ = _
      rw [ho ("base", W.b0) (by simp [optionalKw, ownKw, normalizeKw, commonKw, defaultNoise])]; exact h_base
    simp only [Est.result, Est.cteVal, bind, Option.bind, Option.getD_some, g_prop_time, g_step_size, g_src_hist_len, g_dest_hist_len, g_cond_hist_len, g_offset, g_base, hx, hy, Est.pair, hz, Est.te, Est.bclass]
  obtain ⟨p, e, e', hr, ho⟩ := im_cte_eval W a kw dx dy dz ha (by simp [requiredKw]) h4
  rw [e, e', hv p hr ho]
  exact ⟨rfl, rfl⟩

theorem e2e_cte_chaoShen {W : World} {dx dy : PyData} {a : PyName} {kw : Kw} {dz : PyData} (ha : Names W.lower .cte a .chaoShen) 
    (h4 : Only ["prop_time", "step_size", "src_hist_len", "dest_hist_len", "cond_hist_len", "offset", "base", "seed"] kw)
    {u : Option PyArg} {s : PyArg} {sh : PyArg} {dh : PyArg} {ch : PyArg} {o : Option PyArg} {b : Base} 
    (h_prop_time : (kwOr kw "prop_time" (.int 0)).toOptArg = some u)
    (h_step_size : (kwOr kw "step_size" (.int 1)).toArg = some s)
    (h_src_hist_len : (kwOr kw "src_hist_len" (.int 1)).toArg = some sh)
    (h_dest_hist_len : (kwOr kw "dest_hist_len" (.int 1)).toArg = some dh)
    (h_cond_hist_len : (kwOr kw "cond_hist_len" (.int 1)).toArg = some ch)
    (h_offset : (kwOr kw "offset" (.none)).toOptArg = some o)
    (h_base : (kwOr kw "base" (W.b0)).toBase = some b)
    {x y : List Int} (hx : PyData.toInts dx = some x) (hy : PyData.toInts dy = some y) {z : List Int} (hz : PyData.toInts dz = some z) :
    imCTE W [dx, dy] a (.val dz) kw = biasCTE .chaoShen x y (some z) { srcHist := sh, destHist := dh, step := s } ch u o b ∧
      imTE W [dx, dy] a (.val dz) kw = biasCTE .chaoShen x y (some z) { srcHist := sh, destHist := dh, step := s } ch u o b := by
  have hv : ∀ p : Kw, (∀ r ∈ requiredKw .cte .chaoShen, p r = kw r) →
      (∀ o ∈ optionalKw W.b0 ⟨.cte, .chaoShen⟩, p o.1 = some (kwOr kw o.1 o.2)) →
      Est.result W ⟨⟨.cte, .chaoShen⟩, [dx, dy], (some dz), p⟩ = biasCTE .chaoShen x y (some z) { srcHist := sh, destHist := dh, step := s } ch u o b := by
    intro p hr ho
    have g_prop_time : Est.get ⟨⟨.cte, .chaoShen⟩, [dx, dy], (some dz), p⟩ "prop_time" PyVal.toOptArg = some u := by
      show (p "prop_time").bind _ = _
      rw [ho ("prop_time", .int 0) (by simp [optionalKw, ownKw, normalizeKw, commonKw, defaultNoise])]; exact h_prop_time
    have g_step_size : Est.get ⟨⟨.cte, .chaoShen⟩, [dx, dy], (some dz), p⟩ "step_size" PyVal.toArg = some s := by
      show (p "step_size").bind _ = _
      rw [ho ("step_size", .int 1) (by simp [optionalKw, ownKw, normalizeKw, commonKw, defaultNoise])]; exact h_step_size
    have g_src_hist_len : Est.get ⟨⟨.cte, .chaoShen⟩, [dx, dy], (some dz), p⟩ "src_hist_len" PyVal.toArg = some sh := by
      show (p "src_hist_len").bind _ = _
      rw [ho ("src_hist_len", .int 1) (by simp [optionalKw, ownKw, normalizeKw, commonKw, defaultNoise])]; exact h_src_hist_len
    have g_dest_hist_len : Est.get ⟨⟨.cte, .chaoShen⟩, [dx, dy], (some dz), p⟩ "dest_hist_len" PyVal.toArg = some dh := by
      show (p "dest_hist_len").bind _ = _
      rw [ho ("dest_hist_len", .int 1) (by simp [optionalKw, ownKw, normalizeKw, commonKw, defaultNoise])]; exact h_dest_hist_len
    have g_cond_hist_len : Est.get ⟨⟨.cte, .chaoShen⟩, [dx, dy], (some dz), p⟩ "cond_hist_len" PyVal.toArg = some ch := by
      show (p "cond_hist_len").bind _ = _
      rw [ho ("cond_hist_len", .int 1) (by simp [optionalKw, ownKw, normalizeKw, commonKw, defaultNoise])]; exact h_cond_hist_len
    have g_offset : Est.get ⟨⟨.cte, .chaoShen⟩, [dx, dy], (some dz), p⟩ "offset" PyVal.toOptArg = some o := by
      show (p "offset").bind _ = _
      rw [ho ("offset", .none) (by simp [optionalKw, ownKw, normalizeKw, commonKw, defaultNoise])]; exact h_offset
    have g_base : Est.get ⟨⟨.cte, .chaoShen⟩, [dx, dy], (some dz), p⟩ "base" PyVal.toBase = some b := by
      show (p "base").bind _ = _
      rw [ho ("base", W.b0) (by simp [optionalKw, ownKw, normalizeKw, commonKw, defaultNoise])]; exact h_base
    simp only [Est.result, Est.cteVal, bind, Option.bind, Option.getD_some, g_prop_time, g_step_size, g_src_hist_len, g_dest_hist_len, g_cond_hist_len, g_offset, g_base, hx, hy, Est.pair, hz, Est.te, Est.bclass]
  obtain ⟨p, e, e', hr, ho⟩ := im_cte_eval W a kw dx dy dz ha (by simp [requiredKw]) h4
  rw [e, e', hv p hr ho]
  exact ⟨rfl, rfl⟩

theorem e2e_cte_chaoWangJost {W : World} {dx dy : PyData} {a : PyName} {kw : Kw} {dz : PyData} (ha : Names W.lower .cte a .chaoWangJost) 
    (h4 : Only ["prop_time", "step_size", "src_hist_len", "dest_hist_len", "cond_hist_len", "offset", "base", "seed"] kw)
    {u : Option PyArg} {s : PyArg} {sh : PyArg} {dh : PyArg} {ch : PyArg} {o : Option PyArg} {b : Base} 
    (h_prop_time : (kwOr kw "prop_time" (.int 0)).toOptArg = some u)
    (h_step_size : (kwOr kw "step_size" (.int 1)).toArg = some s)
    (h_src_hist_len : (kwOr kw "src_hist_len" (.int 1)).toArg = some sh)
    (h_dest_hist_len : (kwOr kw "dest_hist_len" (.int 1)).toArg = some dh)
    (h_cond_hist_len : (kwOr kw "cond_hist_len" (.int 1)).toArg = some ch)
    (h_offset : (kwOr kw "offset" (.none)).toOptArg = some o)
    (h_base : (kwOr kw "base" (W.b0)).toBase = some b)
    {x y : List Int} (hx : PyData.toInts dx = some x) (hy : PyData.toInts dy = some y) {z : List Int} (hz : PyData.toInts dz = some z) :
    imCTE W [dx, dy] a (.val dz) kw = biasCTE .chaoWangJost x y (some z) { srcHist := sh, destHist := dh, step := s } ch u o b ∧
      imTE W [dx, dy] a (.val dz) kw = biasCTE .chaoWangJost x y (some z) { srcHist := sh, destHist := dh, step := s } ch u o b := by
  have hv : ∀ p : Kw, (∀ r ∈ requiredKw .cte .chaoWangJost, p r = kw r) →
      (∀ o ∈ optionalKw W.b0 ⟨.cte, .chaoWangJost⟩, p o.1 = some (kwOr kw o.1 o.2)) →
      Est.result W ⟨⟨.cte, .chaoWangJost⟩, [dx, dy], (some dz), p⟩ = biasCTE .chaoWangJost x y (some z) { srcHist := sh, destHist := dh, step := s } ch u o b := by
    intro p hr ho
    have g_prop_time : Est.get ⟨⟨.cte, .chaoWangJost⟩, [dx, dy], (some dz), p⟩ "prop_time" PyVal.toOptArg = some u := by
      show (p "prop_time").bind _ = _
      rw [ho ("prop_time", .int 0) (by simp [optionalKw, ownKw, normalizeKw, commonKw, defaultNoise])]; exact h_prop_time
    have g_step_size : Est.get ⟨⟨.cte, .chaoWangJost⟩, [dx, dy], (some dz), p⟩ "step_size" PyVal.toArg = some s := by
      show (p "step_size").bind _ = _
      rw [ho ("step_size", .int 1) (by simp [optionalKw, ownKw, normalizeKw, commonKw, defaultNoise])]; exact h_step_size
    have g_src_hist_len : Est.get ⟨⟨.cte, .chaoWangJost⟩, [dx, dy], (some dz), p⟩ "src_hist_len" PyVal.toArg = some sh := by
      show (p "src_hist_len").bind _ = _
      rw [ho ("src_hist_len", .int 1) (by simp [optionalKw, ownKw, normalizeKw, commonKw, defaultNoise])]; exact h_src_hist_len
    have g_dest_hist_len : Est.get ⟨⟨.cte, .chaoWangJost⟩, [dx, dy], (some dz), p⟩ "dest_hist_len" PyVal.toArg = some dh := by
      show (p "dest_hist_len").bind _ = _
      rw [ho ("dest_hist_len", .int 1) (by simp [optionalKw, ownKw, normalizeKw, commonKw, defaultNoise])]; exact h_dest_hist_len
    have g_cond_hist_len : Est.get ⟨⟨.cte, .chaoWangJost⟩, [dx, dy], (some dz), p⟩ "cond_hist_len" PyVal.toArg = some ch := by
      show (p "cond_hist_len").bind _ = _
      rw [ho ("cond_hist_len", .int 1) (by simp [optionalKw, ownKw, normalizeKw, commonKw, defaultNoise])]; exact h_cond_hist_len
    have g_offset : Est.get ⟨⟨.cte, .chaoWangJost⟩, [dx, dy], (some dz), p⟩ "offset" PyVal.toOptArg = some o := by
      show (p "offset").bind _ = _
      rw [ho ("offset", .none) (by simp [optionalKw, ownKw, normalizeKw, commonKw, defaultNoise])]; exact h_offset
    have g_base : Est.get ⟨⟨.cte, .chaoWangJost⟩, [dx, dy], (some dz), p⟩ "base" PyVal.toBase = some b := by
      show (p "base").bind _ = _
      rw [ho ("base", W.b0) (by simp [optionalKw, ownKw, normalizeKw, commonKw, defaultNoise])]; exact h_base
    simp only [Est.result, Est.cteVal, bind, Option.bind, Option.getD_some, g_prop_time, g_step_size, g_src_hist_len, g_dest_hist_len, g_cond_hist_len, g_offset, g_base, hx, hy, Est.pair, hz, Est.te, Est.bclass]
  obtain ⟨p, e, e', hr, ho⟩ := im_cte_eval W a kw dx dy dz ha (by simp [requiredKw]) h4
  rw [e, e', hv p hr ho]
  exact ⟨rfl, rfl⟩

theorem e2e_cte_shrink {W : World} {dx dy : PyData} {a : PyName} {kw : Kw} {dz : PyData} (ha : Names W.lower .cte a .shrink) 
    (h4 : Only ["prop_time", "step_size", "src_hist_len", "dest_hist_len", "cond_hist_len", "offset", "base", "seed"] kw)
    {u : Option PyArg} {s : PyArg} {sh : PyArg} {dh : PyArg} {ch : PyArg} {o : Option PyArg} {b : Base} 
    (h_prop_time : (kwOr kw "prop_time" (.int 0)).toOptArg = some u)
    (h_step_size : (kwOr kw "step_size" (.int 1)).toArg = some s)
    (h_src_hist_len : (kwOr kw "src_hist_len" (.int 1)).toArg = some sh)
    (h_dest_hist_len : (kwOr kw "dest_hist_len" (.int 1)).toArg = some dh)
    (h_cond_hist_len : (kwOr kw "cond_hist_len" (.int 1)).toArg = some ch)
    (h_offset : (kwOr kw "offset" (.none)).toOptArg = some o)
    (h_base : (kwOr kw "base" (W.b0)).toBase = some b)
    {x y : List Int} (hx : PyData.toInts dx = some x) (hy : PyData.toInts dy = some y) {z : List Int} (hz : PyData.toInts dz = some z) :
    imCTE W [dx, dy] a (.val dz) kw = biasCTE .shrink x y (some z) { srcHist := sh, destHist := dh, step := s } ch u o b ∧
      imTE W [dx, dy] a (.val dz) kw = biasCTE .shrink x y (some z) { srcHist := sh, destHist := dh, step := s } ch u o b := by
  have hv : ∀ p : Kw, (∀ r ∈ requiredKw .cte .shrink, p r = kw r) →
      (∀ o ∈ optionalKw W.b0 ⟨.cte, .shrink⟩, p o.1 = some (kwOr kw o.1 o.2)) →
      Est.result W ⟨⟨.cte, .shrink⟩, [dx, dy], (some dz), p⟩ = biasCTE .shrink x y (some z) { srcHist := sh, destHist := dh, step := s } ch u o b := by
    intro p hr ho
    have g_prop_time : Est.get ⟨⟨.cte, .shrink⟩, [dx, dy], (some dz), p⟩ "prop_time" PyVal.toOptArg = some u := by
      show (p "prop_time").bind _ = _
      rw [ho ("prop_time", .int 0) (by simp [optionalKw, ownKw, normalizeKw, commonKw, defaultNoise])]; exact h_prop_time
    have g_step_size : Est.get ⟨⟨.cte, .shrink⟩, [dx, dy], (some dz), p⟩ "step_size" PyVal.toArg = some s := by
      show (p "step_size").bind _ = _
      rw [ho ("step_size", .int 1) (by simp [optionalKw, ownKw, normalizeKw, commonKw, defaultNoise])]; exact h_step_size
    have g_src_hist_len : Est.get ⟨⟨.cte, .shrink⟩, [dx, dy], (some dz), p⟩ "src_hist_len" PyVal.toArg = some sh := by
      show (p "src_hist_len").bind _ = _
      rw [ho ("src_hist_len", .int 1) (by simp [optionalKw, ownKw, normalizeKw, commonKw, defaultNoise])]; exact h_src_hist_len
    have g_dest_hist_len : Est.get ⟨⟨.cte, .shrink⟩, [dx, dy], (some dz), p⟩ "dest_hist_len" PyVal.toArg = some dh := by
      show (p "dest_hist_len").bind _ = _
      rw [ho ("dest_hist_len", .int 1) (by simp [optionalKw, ownKw, normalizeKw, commonKw, defaultNoise])]; exact h_dest_hist_len
    have g_cond_hist_len : Est.get ⟨⟨.cte, .shrink⟩, [dx, dy], (some dz), p⟩ "cond_hist_len" PyVal.toArg = some ch := by
      show (p "cond_hist_len").bind _ = _
      rw [ho ("cond_hist_len", .int 1) (by simp [optionalKw, ownKw, normalizeKw, commonKw, defaultNoise])]; exact h_cond_hist_len
    have g_offset : Est.get ⟨⟨.cte, .shrink⟩, [dx, dy], (some dz), p⟩ "offset" PyVal.toOptArg = some o := by
      show (p "offset").bind _ = _
      rw [ho ("offset", .none) (by simp [optionalKw, ownKw, normalizeKw, commonKw, defaultNoise])]; exact h_offset
    have g_base : Est.get ⟨⟨.cte, .shrink⟩, [dx, dy], (some dz), p⟩ "base" PyVal.toBase = some b := by
      show (p "base").bind _ = _
      rw [ho ("base", W.b0) (by simp [optionalKw, ownKw, normalizeKw, commonKw, defaultNoise])]; exact h_base
    simp only [Est.result, Est.cteVal, bind, Option.bind, Option.getD_some, g_prop_time, g_step_size, g_src_hist_len, g_dest_hist_len, g_cond_hist_len, g_offset, g_base, hx, hy, Est.pair, hz, Est.te, Est.bclass]
  obtain ⟨p, e, e', hr, ho⟩ := im_cte_eval W a kw dx dy dz ha (by simp [requiredKw]) h4
  rw [e, e', hv p hr ho]
  exact ⟨rfl, rfl⟩

theorem e2e_cte_zhang {W : World} {dx dy : PyData} {a : PyName} {kw : Kw} {dz : PyData} (ha : Names W.lower .cte a .zhang) 
    (h4 : Only ["prop_time", "step_size", "src_hist_len", "dest_hist_len", "cond_hist_len", "offset", "base", "seed"] kw)
    {u : Option PyArg} {s : PyArg} {sh : PyArg} {dh : PyArg} {ch : PyArg} {o : Option PyArg} {b : Base} 
    (h_prop_time : (kwOr kw "prop_time" (.int 0)).toOptArg = some u)
    (h_step_size : (kwOr kw "step_size" (.int 1)).toArg = some s)
    (h_src_hist_len : (kwOr kw "src_hist_len" (.int 1)).toArg = some sh)
    (h_dest_hist_len : (kwOr kw "dest_hist_len" (.int 1)).toArg = some dh)
    (h_cond_hist_len : (kwOr kw "cond_hist_len" (.int 1)).toArg = some ch)
    (h_offset : (kwOr kw "offset" (.none)).toOptArg = some o)
    (h_base : (kwOr kw "base" (W.b0)).toBase = some b)
    {x y : List Int} (hx : PyData.toInts dx = some x) (hy : PyData.toInts dy = some y) {z : List Int} (hz : PyData.toInts dz = some z) :
    imCTE W [dx, dy] a (.val dz) kw = biasCTE .zhang x y (some z) { srcHist := sh, destHist := dh, step := s } ch u o b ∧
      imTE W [dx, dy] a (.val dz) kw = biasCTE .zhang x y (some z) { srcHist := sh, destHist := dh, step := s } ch u o b := by
  have hv : ∀ p : Kw, (∀ r ∈ requiredKw .cte .zhang, p r = kw r) →
      (∀ o ∈ optionalKw W.b0 ⟨.cte, .zhang⟩, p o.1 = some (kwOr kw o.1 o.2)) →
      Est.result W ⟨⟨.cte, .zhang⟩, [dx, dy], (some dz), p⟩ = biasCTE .zhang x y (some z) { srcHist := sh, destHist := dh, step := s } ch u o b := by
    intro p hr ho
    have g_prop_time : Est.get ⟨⟨.cte, .zhang⟩, [dx, dy], (some dz), p⟩ "prop_time" PyVal.toOptArg = some u := by
      show (p "prop_time").bind _ = _
      rw [ho ("prop_time", .int 0) (by simp [optionalKw, ownKw, normalizeKw, commonKw, defaultNoise])]; exact h_prop_time
    have g_step_size : Est.get ⟨⟨.cte, .zhang⟩, [dx, dy], (some dz), p⟩ "step_size" PyVal.toArg = some s := by
      show (p "step_size").bind _ = _
      rw [ho ("step_size", .int 1) (by simp [optionalKw, ownKw, normalizeKw, commonKw, defaultNoise])]; exact h_step_size
    have g_src_hist_len : Est.get ⟨⟨.cte, .zhang⟩, [dx, dy], (some dz), p⟩ "src_hist_len" PyVal.toArg = some sh := by
      show (p "src_hist_len").bind _ = _
      rw [ho ("src_hist_len", .int 1) (by simp [optionalKw, ownKw, normalizeKw, commonKw, defaultNoise])]; exact h_src_hist_len
    have g_dest_hist_len : Est.get ⟨⟨.cte, .zhang⟩, [dx, dy], (some dz), p⟩ "dest_hist_len" PyVal.toArg = some dh := by
      show (p "dest_hist_len").bind _ = _
      rw [ho ("dest_hist_len", .int 1) (by simp [optionalKw, ownKw, normalizeKw, commonKw, defaultNoise])]; exact h_dest_hist_len
    have g_cond_hist_len : Est.get ⟨⟨.cte, .zhang⟩, [dx, dy], (some dz), p⟩ "cond_hist_len" PyVal.toArg = some ch := by
      show (p "cond_hist_len").bind _ = _
      rw [ho ("cond_hist_len", .int 1) (by simp [optionalKw, ownKw, normalizeKw, commonKw, defaultNoise])]; exact h_cond_hist_len
    have g_offset : Est.get ⟨⟨.cte, .zhang⟩, [dx, dy], (some dz), p⟩ "offset" PyVal.toOptArg = some o := by
      show (p "offset").bind _ = _
      rw [ho ("offset", .none) (by simp [optionalKw, ownKw, normalizeKw, commonKw, defaultNoise])]; exact h_offset
    have g_base : Est.get ⟨⟨.cte, .zhang⟩, [dx, dy], (some dz), p⟩ "base" PyVal.toBase = some b := by
      show (p "base").bind _ = _
      rw [ho ("base", W.b0) (by simp [optionalKw, ownKw, normalizeKw, commonKw, defaultNoise])]; exact h_base
    simp only [Est.result, Est.cteVal, bind, Option.bind, Option.getD_some, g_prop_time, g_step_size, g_src_hist_len, g_dest_hist_len, g_cond_hist_len, g_offset, g_base, hx, hy, Est.pair, hz, Est.te, Est.bclass]
  obtain ⟨p, e, e', hr, ho⟩ := im_cte_eval W a kw dx dy dz ha (by simp [requiredKw]) h4
  rw [e, e', hv p hr ho]
  exact ⟨rfl, rfl⟩

theorem e2e_cte_bonachela {W : World} {dx dy : PyData} {a : PyName} {kw : Kw} {dz : PyData} (ha : Names W.lower .cte a .bonachela) 
    (h4 : Only ["prop_time", "step_size", "src_hist_len", "dest_hist_len", "cond_hist_len", "offset", "base", "seed"] kw)
    {u : Option PyArg} {s : PyArg} {sh : PyArg} {dh : PyArg} {ch : PyArg} {o : Option PyArg} {b : Base} 
    (h_prop_time : (kwOr kw "prop_time" (.int 0)).toOptArg = some u)
    (h_step_size : (kwOr kw "step_size" (.int 1)).toArg = some s)
    (h_src_hist_len : (kwOr kw "src_hist_len" (.int 1)).toArg = some sh)
    (h_dest_hist_len : (kwOr kw "dest_hist_len" (.int 1)).toArg = some dh)
    (h_cond_hist_len : (kwOr kw "cond_hist_len" (.int 1)).toArg = some ch)
    (h_offset : (kwOr kw "offset" (.none)).toOptArg = some o)
    (h_base : (kwOr kw "base" (W.b0)).toBase = some b)
    {x y : List Int} (hx : PyData.toInts dx = some x) (hy : PyData.toInts dy = some y) {z : List Int} (hz : PyData.toInts dz = some z) :
    imCTE W [dx, dy] a (.val dz) kw = biasCTE .bonachela x y (some z) { srcHist := sh, destHist := dh, step := s } ch u o b ∧
      imTE W [dx, dy] a (.val dz) kw = biasCTE .bonachela x y (some z) { srcHist := sh, destHist := dh, step := s } ch u o b := by
  have hv : ∀ p : Kw, (∀ r ∈ requiredKw .cte .bonachela, p r = kw r) →
      (∀ o ∈ optionalKw W.b0 ⟨.cte, .bonachela⟩, p o.1 = some (kwOr kw o.1 o.2)) →
      Est.result W ⟨⟨.cte, .bonachela⟩, [dx, dy], (some dz), p⟩ = biasCTE .bonachela x y (some z) { srcHist := sh, destHist := dh, step := s } ch u o b := by
    intro p hr ho
    have g_prop_time : Est.get ⟨⟨.cte, .bonachela⟩, [dx, dy], (some dz), p⟩ "prop_time" PyVal.toOptArg = some u := by
      show (p "prop_time").bind _ = _
      rw [ho ("prop_time", .int 0) (by simp [optionalKw, ownKw, normalizeKw, commonKw, defaultNoise])]; exact h_prop_time
    have g_step_size : Est.get ⟨⟨.cte, .bonachela⟩, [dx, dy], (some dz), p⟩ "step_size" PyVal.toArg = some s := by
      show (p "step_size").bind _ = _
      rw [ho ("step_size", .int 1) (by simp [optionalKw, ownKw, normalizeKw, commonKw, defaultNoise])]; exact h_step_size
    have g_src_hist_len : Est.get ⟨⟨.cte, .bonachela⟩, [dx, dy], (some dz), p⟩ "src_hist_len" PyVal.toArg = some sh := by
      show (p "src_hist_len").bind _ = _
      rw [ho ("src_hist_len", .int 1) (by simp [optionalKw, ownKw, normalizeKw, commonKw, defaultNoise])]; exact h_src_hist_len
    have g_dest_hist_len : Est.get ⟨⟨.cte, .bonachela⟩, [dx, dy], (some dz), p⟩ "dest_hist_len" PyVal.toArg = some dh := by
      show (p "dest_hist_len").bind _ = _
      rw [ho ("dest_hist_len", .int 1) (by simp [optionalKw, ownKw, normalizeKw, commonKw, defaultNoise])]; exact h_dest_hist_len
    have g_cond_hist_len : Est.get ⟨⟨.cte, .bonachela⟩, [dx, dy], (some dz), p⟩ "cond_hist_len" PyVal.toArg = some ch := by
      show (p "cond_hist_len").bind _ = _
      rw [ho ("cond_hist_len", .int 1) (by simp [optionalKw, ownKw, normalizeKw, commonKw, defaultNoise])]; exact h_cond_hist_len
    have g_offset : Est.get ⟨⟨.cte, .bonachela⟩, [dx, dy], (some dz), p⟩ "offset" PyVal.toOptArg = some o := by
      show (p "offset").bind _ = _
      rw [ho ("offset", .none) (by simp [optionalKw, ownKw, normalizeKw, commonKw, defaultNoise])]; exact h_offset
    have g_base : Est.get ⟨⟨.cte, .bonachela⟩, [dx, dy], (some dz), p⟩ "base" PyVal.toBase = some b := by
      show (p "base").bind _ = _
      rw [ho ("base", W.b0) (by simp [optionalKw, ownKw, normalizeKw, commonKw, defaultNoise])]; exact h_base
    simp only [Est.result, Est.cteVal, bind, Option.bind, Option.getD_some, g_prop_time, g_step_size, g_src_hist_len, g_dest_hist_len, g_cond_hist_len, g_offset, g_base, hx, hy, Est.pair, hz, Est.te, Est.bclass]
  obtain ⟨p, e, e', hr, ho⟩ := im_cte_eval W a kw dx dy dz ha (by simp [requiredKw]) h4
  rw [e, e', hv p hr ho]
  exact ⟨rfl, rfl⟩

theorem e2e_cte_bayes {W : World} {dx dy : PyData} {a : PyName} {kw : Kw} {dz : PyData} (ha : Names W.lower .cte a .bayes) 
    (h4 : Only ["alpha", "K", "prop_time", "step_size", "src_hist_len", "dest_hist_len", "cond_hist_len", "offset", "base", "seed"] kw)
    {al : AlphaArg} {K : Option PyArg} {u : Option PyArg} {s : PyArg} {sh : PyArg} {dh : PyArg} {ch : PyArg} {o : Option PyArg} {b : Base} 
    (h_alpha : (kw "alpha").bind PyVal.toAlpha = some al)
    (h_K : (kwOr kw "K" (.none)).toOptArg = some K)
    (h_prop_time : (kwOr kw "prop_time" (.int 0)).toOptArg = some u)
    (h_step_size : (kwOr kw "step_size" (.int 1)).toArg = some s)
    (h_src_hist_len : (kwOr kw "src_hist_len" (.int 1)).toArg = some sh)
    (h_dest_hist_len : (kwOr kw "dest_hist_len" (.int 1)).toArg = some dh)
    (h_cond_hist_len : (kwOr kw "cond_hist_len" (.int 1)).toArg = some ch)
    (h_offset : (kwOr kw "offset" (.none)).toOptArg = some o)
    (h_base : (kwOr kw "base" (W.b0)).toBase = some b)
    {x y : List Int} (hx : PyData.toInts dx = some x) (hy : PyData.toInts dy = some y) {z : List Int} (hz : PyData.toInts dz = some z) :
    imCTE W [dx, dy] a (.val dz) kw = biasCTE (.bayes al K) x y (some z) { srcHist := sh, destHist := dh, step := s } ch u o b ∧
      imTE W [dx, dy] a (.val dz) kw = biasCTE (.bayes al K) x y (some z) { srcHist := sh, destHist := dh, step := s } ch u o b := by
  have hv : ∀ p : Kw, (∀ r ∈ requiredKw .cte .bayes, p r = kw r) →
      (∀ o ∈ optionalKw W.b0 ⟨.cte, .bayes⟩, p o.1 = some (kwOr kw o.1 o.2)) →
      Est.result W ⟨⟨.cte, .bayes⟩, [dx, dy], (some dz), p⟩ = biasCTE (.bayes al K) x y (some z) { srcHist := sh, destHist := dh, step := s } ch u o b := by
    intro p hr ho
    have g_alpha : Est.get ⟨⟨.cte, .bayes⟩, [dx, dy], (some dz), p⟩ "alpha" PyVal.toAlpha = some al := by
      show (p "alpha").bind _ = _
      rw [hr "alpha" (by simp [requiredKw])]; exact h_alpha
    have g_K : Est.get ⟨⟨.cte, .bayes⟩, [dx, dy], (some dz), p⟩ "K" PyVal.toOptArg = some K := by
      show (p "K").bind _ = _
      rw [ho ("K", .none) (by simp [optionalKw, ownKw, normalizeKw, commonKw, defaultNoise])]; exact h_K
    have g_prop_time : Est.get ⟨⟨.cte, .bayes⟩, [dx, dy], (some dz), p⟩ "prop_time" PyVal.toOptArg = some u := by
      show (p "prop_time").bind _ = _
      rw [ho ("prop_time", .int 0) (by simp [optionalKw, ownKw, normalizeKw, commonKw, defaultNoise])]; exact h_prop_time
    have g_step_size : Est.get ⟨⟨.cte, .bayes⟩, [dx, dy], (some dz), p⟩ "step_size" PyVal.toArg = some s := by
      show (p "step_size").bind _ = _
      rw [ho ("step_size", .int 1) (by simp [optionalKw, ownKw, normalizeKw, commonKw, defaultNoise])]; exact h_step_size
    have g_src_hist_len : Est.get ⟨⟨.cte, .bayes⟩, [dx, dy], (some dz), p⟩ "src_hist_len" PyVal.toArg = some sh := by
      show (p "src_hist_len").bind _ = _
      rw [ho ("src_hist_len", .int 1) (by simp [optionalKw, ownKw, normalizeKw, commonKw, defaultNoise])]; exact h_src_hist_len
    have g_dest_hist_len : Est.get ⟨⟨.cte, .bayes⟩, [dx, dy], (some dz), p⟩ "dest_hist_len" PyVal.toArg = some dh := by
      show (p "dest_hist_len").bind _ = _
      rw [ho ("dest_hist_len", .int 1) (by simp [optionalKw, ownKw, normalizeKw, commonKw, defaultNoise])]; exact h_dest_hist_len
    have g_cond_hist_len : Est.get ⟨⟨.cte, .bayes⟩, [dx, dy], (some dz), p⟩ "cond_hist_len" PyVal.toArg = some ch := by
      show (p "cond_hist_len").bind _ = _
      rw [ho ("cond_hist_len", .int 1) (by simp [optionalKw, ownKw, normalizeKw, commonKw, defaultNoise])]; exact h_cond_hist_len
    have g_offset : Est.get ⟨⟨.cte, .bayes⟩, [dx, dy], (some dz), p⟩ "offset" PyVal.toOptArg = some o := by
      show (p "offset").bind _ = _
      rw [ho ("offset", .none) (by simp [optionalKw, ownKw, normalizeKw, commonKw, defaultNoise])]; exact h_offset
    have g_base : Est.get ⟨⟨.cte, .bayes⟩, [dx, dy], (some dz), p⟩ "base" PyVal.toBase = some b := by
      show (p "base").bind _ = _
      rw [ho ("base", W.b0) (by simp [optionalKw, ownKw, normalizeKw, commonKw, defaultNoise])]; exact h_base
    simp only [Est.result, Est.cteVal, bind, Option.bind, Option.getD_some, g_alpha, g_K, g_prop_time, g_step_size, g_src_hist_len, g_dest_hist_len, g_cond_hist_len, g_offset, g_base, hx, hy, Est.pair, hz, Est.te, Est.bclass]
  obtain ⟨p, e, e', hr, ho⟩ := im_cte_eval W a kw dx dy dz ha (by
    intro r hr
    simp only [requiredKw, List.mem_cons, List.not_mem_nil, or_false] at hr
    rcases hr with rfl
    · intro hn; rw [hn] at h_alpha; simp at h_alpha) h4
  rw [e, e', hv p hr ho]
  exact ⟨rfl, rfl⟩

theorem e2e_cte_ansb {W : World} {dx dy : PyData} {a : PyName} {kw : Kw} {dz : PyData} (ha : Names W.lower .cte a .ansb) 
    (h4 : Only ["undersampled", "prop_time", "step_size", "src_hist_len", "dest_hist_len", "cond_hist_len", "offset", "base", "seed"] kw)
    {us : ℝ} {u : Option PyArg} {s : PyArg} {sh : PyArg} {dh : PyArg} {ch : PyArg} {o : Option PyArg} {b : Base} 
    (h_undersampled : (kwOr kw "undersampled" (.num (1 / 10))).toNum = some us)
    (h_prop_time : (kwOr kw "prop_time" (.int 0)).toOptArg = some u)
    (h_step_size : (kwOr kw "step_size" (.int 1)).toArg = some s)
    (h_src_hist_len : (kwOr kw "src_hist_len" (.int 1)).toArg = some sh)
    (h_dest_hist_len : (kwOr kw "dest_hist_len" (.int 1)).toArg = some dh)
    (h_cond_hist_len : (kwOr kw "cond_hist_len" (.int 1)).toArg = some ch)
    (h_offset : (kwOr kw "offset" (.none)).toOptArg = some o)
    (h_base : (kwOr kw "base" (W.b0)).toBase = some b)
    {x y : List Int} (hx : PyData.toInts dx = some x) (hy : PyData.toInts dy = some y) {z : List Int} (hz : PyData.toInts dz = some z) :
    imCTE W [dx, dy] a (.val dz) kw = biasCTE (.ansb us) x y (some z) { srcHist := sh, destHist := dh, step := s } ch u o b ∧
      imTE W [dx, dy] a (.val dz) kw = biasCTE (.ansb us) x y (some z) { srcHist := sh, destHist := dh, step := s } ch u o b := by
  have hv : ∀ p : Kw, (∀ r ∈ requiredKw .cte .ansb, p r = kw r) →
      (∀ o ∈ optionalKw W.b0 ⟨.cte, .ansb⟩, p o.1 = some (kwOr kw o.1 o.2)) →
      Est.result W ⟨⟨.cte, .ansb⟩, [dx, dy], (some dz), p⟩ = biasCTE (.ansb us) x y (some z) { srcHist := sh, destHist := dh, step := s } ch u o b := by
    intro p hr ho
    have g_undersampled : Est.get ⟨⟨.cte, .ansb⟩, [dx, dy], (some dz), p⟩ "undersampled" PyVal.toNum = some us := by
      show (p "undersampled").bind _ = _
      rw [ho ("undersampled", .num (1 / 10)) (by simp [optionalKw, ownKw, normalizeKw, commonKw, defaultNoise])]; exact h_undersampled
    have g_prop_time : Est.get ⟨⟨.cte, .ansb⟩, [dx, dy], (some dz), p⟩ "prop_time" PyVal.toOptArg = some u := by
      show (p "prop_time").bind _ = _
      rw [ho ("prop_time", .int 0) (by simp [optionalKw, ownKw, normalizeKw, commonKw, defaultNoise])]; exact h_prop_time
    have g_step_size : Est.get ⟨⟨.cte, .ansb⟩, [dx, dy], (some dz), p⟩ "step_size" PyVal.toArg = some s := by
      show (p "step_size").bind _ = _
      rw [ho ("step_size", .int 1) (by simp [optionalKw, ownKw, normalizeKw, commonKw, defaultNoise])]; exact h_step_size
    have g_src_hist_len : Est.get ⟨⟨.cte, .ansb⟩, [dx, dy], (some dz), p⟩ "src_hist_len" PyVal.toArg = some sh := by
      show (p "src_hist_len").bind _ = _
      rw [ho ("src_hist_len", .int 1) (by simp [optionalKw, ownKw, normalizeKw, commonKw, defaultNoise])]; exact h_src_hist_len
    have g_dest_hist_len : Est.get ⟨⟨.cte, .ansb⟩, [dx, dy], (some dz), p⟩ "dest_hist_len" PyVal.toArg = some dh := by
      show (p "dest_hist_len").bind _ = _
      rw [ho ("dest_hist_len", .int 1) (by simp [optionalKw, ownKw, normalizeKw, commonKw, defaultNoise])]; exact h_dest_hist_len
    have g_cond_hist_len : Est.get ⟨⟨.cte, .ansb⟩, [dx, dy], (some dz), p⟩ "cond_hist_len" PyVal.toArg = some ch := by
      show (p "cond_hist_len").bind _ = _
      rw [ho ("cond_hist_len", .int 1) (by simp [optionalKw, ownKw, normalizeKw, commonKw, defaultNoise])]; exact h_cond_hist_len
    have g_offset : Est.get ⟨⟨.cte, .ansb⟩, [dx, dy], (some dz), p⟩ "offset" PyVal.toOptArg = some o := by
      show (p "offset").bind _ = _
      rw [ho ("offset", .none) (by simp [optionalKw, ownKw, normalizeKw, commonKw, defaultNoise])]; exact h_offset
    have g_base : Est.get ⟨⟨.cte, .ansb⟩, [dx, dy], (some dz), p⟩ "base" PyVal.toBase = some b := by
      show (p "base").bind _ = _
      rw [ho ("base", W.b0) (by simp [optionalKw, ownKw, normalizeKw, commonKw, defaultNoise])]; exact h_base
    simp only [Est.result, Est.cteVal, bind, Option.bind, Option.getD_some, g_undersampled, g_prop_time, g_step_size, g_src_hist_len, g_dest_hist_len, g_cond_hist_len, g_offset, g_base, hx, hy, Est.pair, hz, Est.te, Est.bclass]
  obtain ⟨p, e, e', hr, ho⟩ := im_cte_eval W a kw dx dy dz ha (by simp [requiredKw]) h4
  rw [e, e', hv p hr ho]
  exact ⟨rfl, rfl⟩

theorem e2e_cte_nsb {W : World} {dx dy : PyData} {a : PyName} {kw : Kw} {dz : PyData} (ha : Names W.lower .cte a .nsb) 
    (h4 : Only ["K", "prop_time", "step_size", "src_hist_len", "dest_hist_len", "cond_hist_len", "offset", "base", "seed"] kw)
    {K : Option PyArg} {u : Option PyArg} {s : PyArg} {sh : PyArg} {dh : PyArg} {ch : PyArg} {o : Option PyArg} {b : Base} 
    (h_K : (kwOr kw "K" (.none)).toOptArg = some K)
    (h_prop_time : (kwOr kw "prop_time" (.int 0)).toOptArg = some u)
    (h_step_size : (kwOr kw "step_size" (.int 1)).toArg = some s)
    (h_src_hist_len : (kwOr kw "src_hist_len" (.int 1)).toArg = some sh)
    (h_dest_hist_len : (kwOr kw "dest_hist_len" (.int 1)).toArg = some dh)
    (h_cond_hist_len : (kwOr kw "cond_hist_len" (.int 1)).toArg = some ch)
    (h_offset : (kwOr kw "offset" (.none)).toOptArg = some o)
    (h_base : (kwOr kw "base" (W.b0)).toBase = some b)
    {x y : List Int} (hx : PyData.toInts dx = some x) (hy : PyData.toInts dy = some y) {z : List Int} (hz : PyData.toInts dz = some z) :
    imCTE W [dx, dy] a (.val dz) kw = nsbCTE W.find K x y (some z) { srcHist := sh, destHist := dh, step := s } ch u o b ∧
      imTE W [dx, dy] a (.val dz) kw = nsbCTE W.find K x y (some z) { srcHist := sh, destHist := dh, step := s } ch u o b := by
  have hv : ∀ p : Kw, (∀ r ∈ requiredKw .cte .nsb, p r = kw r) →
      (∀ o ∈ optionalKw W.b0 ⟨.cte, .nsb⟩, p o.1 = some (kwOr kw o.1 o.2)) →
      Est.result W ⟨⟨.cte, .nsb⟩, [dx, dy], (some dz), p⟩ = nsbCTE W.find K x y (some z) { srcHist := sh, destHist := dh, step := s } ch u o b := by
    intro p hr ho
    have g_K : Est.get ⟨⟨.cte, .nsb⟩, [dx, dy], (some dz), p⟩ "K" PyVal.toOptArg = some K := by
      show (p "K").bind _ = _
      rw [ho ("K", .none) (by simp [optionalKw, ownKw, normalizeKw, commonKw, defaultNoise])]; exact h_K
    have g_prop_time : Est.get ⟨⟨.cte, .nsb⟩, [dx, dy], (some dz), p⟩ "prop_time" PyVal.toOptArg = some u := by
      show (p "prop_time").bind _ = _
      rw [ho ("prop_time", .int 0) (by simp [optionalKw, ownKw, normalizeKw, commonKw, defaultNoise])]; exact h_prop_time
    have g_step_size : Est.get ⟨⟨.cte, .nsb⟩, [dx, dy], (some dz), p⟩ "step_size" PyVal.toArg = some s := by
      show (p "step_size").bind _ = _
      rw [ho ("step_size", .int 1) (by simp [optionalKw, ownKw, normalizeKw, commonKw, defaultNoise])]; exact h_step_size
    have g_src_hist_len : Est.get ⟨⟨.cte, .nsb⟩, [dx, dy], (some dz), p⟩ "src_hist_len" PyVal.toArg = some sh := by
      show (p "src_hist_len").bind _ = _
      rw [ho ("src_hist_len", .int 1) (by simp [optionalKw, ownKw, normalizeKw, commonKw, defaultNoise])]; exact h_src_hist_len
    have g_dest_hist_len : Est.get ⟨⟨.cte, .nsb⟩, [dx, dy], (some dz), p⟩ "dest_hist_len" PyVal.toArg = some dh := by
      show (p "dest_hist_len").bind _ = _
      rw [ho ("dest_hist_len", .int 1) (by simp [optionalKw, ownKw, normalizeKw, commonKw, defaultNoise])]; exact h_dest_hist_len
    have g_cond_hist_len : Est.get ⟨⟨.cte, .nsb⟩, [dx, dy], (some dz), p⟩ "cond_hist_len" PyVal.toArg = some ch := by
      show (p "cond_hist_len").bind _ = _
      rw [ho ("cond_hist_len", .int 1) (by simp [optionalKw, ownKw, normalizeKw, commonKw, defaultNoise])]; exact h_cond_hist_len
    have g_offset : Est.get ⟨⟨.cte, .nsb⟩, [dx, dy], (some dz), p⟩ "offset" PyVal.toOptArg = some o := by
      show (p "offset").bind _ = _
      rw [ho ("offset", .none) (by simp [optionalKw, ownKw, normalizeKw, commonKw, defaultNoise])]; exact h_offset
    have g_base : Est.get ⟨⟨.cte, .nsb⟩, [dx, dy], (some dz), p⟩ "base" PyVal.toBase = some b := by
      show (p "base").bind _ = _
      rw [ho ("base", W.b0) (by simp [optionalKw, ownKw, normalizeKw, commonKw, defaultNoise])]; exact h_base
    simp only [Est.result, Est.cteVal, bind, Option.bind, Option.getD_some, g_K, g_prop_time, g_step_size, g_src_hist_len, g_dest_hist_len, g_cond_hist_len, g_offset, g_base, hx, hy, Est.pair, hz, Est.te]
  obtain ⟨p, e, e', hr, ho⟩ := im_cte_eval W a kw dx dy dz ha (by simp [requiredKw]) h4
  rw [e, e', hv p hr ho]
  exact ⟨rfl, rfl⟩

theorem e2e_cte_ordinal {W : World} {dx dy : PyData} {a : PyName} {kw : Kw} {dz : PyData} (ha : Names W.lower .cte a .ordinal) 
    (h4 : Only ["embedding_dim", "stable", "prop_time", "step_size", "src_hist_len", "dest_hist_len", "cond_hist_len", "offset", "base", "seed"] kw)
    {d : PyArg} {st : Bool} {u : Option PyArg} {s : PyArg} {sh : PyArg} {dh : PyArg} {ch : PyArg} {o : Option PyArg} {b : Base} 
    (h_embedding_dim : (kw "embedding_dim").bind PyVal.toArg = some d)
    (h_stable : (kwOr kw "stable" (.bool false)).toBool = some st)
    (h_prop_time : (kwOr kw "prop_time" (.int 0)).toOptArg = some u)
    (h_step_size : (kwOr kw "step_size" (.int 1)).toArg = some s)
    (h_src_hist_len : (kwOr kw "src_hist_len" (.int 1)).toArg = some sh)
    (h_dest_hist_len : (kwOr kw "dest_hist_len" (.int 1)).toArg = some dh)
    (h_cond_hist_len : (kwOr kw "cond_hist_len" (.int 1)).toArg = some ch)
    (h_offset : (kwOr kw "offset" (.none)).toOptArg = some o)
    (h_base : (kwOr kw "base" (W.b0)).toBase = some b)
    {x y : List ℝ} (hx : PyData.toSeries dx = some x) (hy : PyData.toSeries dy = some y) {z : List ℝ} (hz : PyData.toSeries dz = some z) :
    imCTE W [dx, dy] a (.val dz) kw = ordCTE W.quick x y (some z) { dim := d, te := { srcHist := sh, destHist := dh, step := s }, stable := st, condHist := ch } u o b ∧
      imTE W [dx, dy] a (.val dz) kw = ordCTE W.quick x y (some z) { dim := d, te := { srcHist := sh, destHist := dh, step := s }, stable := st, condHist := ch } u o b := by
  have hv : ∀ p : Kw, (∀ r ∈ requiredKw .cte .ordinal, p r = kw r) →
      (∀ o ∈ optionalKw W.b0 ⟨.cte, .ordinal⟩, p o.1 = some (kwOr kw o.1 o.2)) →
      Est.result W ⟨⟨.cte, .ordinal⟩, [dx, dy], (some dz), p⟩ = ordCTE W.quick x y (some z) { dim := d, te := { srcHist := sh, destHist := dh, step := s }, stable := st, condHist := ch } u o b := by
    intro p hr ho
    have g_embedding_dim : Est.get ⟨⟨.cte, .ordinal⟩, [dx, dy], (some dz), p⟩ "embedding_dim" PyVal.toArg = some d := by
      show (p "embedding_dim").bind _ = _
      rw [hr "embedding_dim" (by simp [requiredKw])]; exact h_embedding_dim
    have g_stable : Est.get ⟨⟨.cte, .ordinal⟩, [dx, dy], (some dz), p⟩ "stable" PyVal.toBool = some st := by
      show (p "stable").bind _ = _
      rw [ho ("stable", .bool false) (by simp [optionalKw, ownKw, normalizeKw, commonKw, defaultNoise])]; exact h_stable
    have g_prop_time : Est.get ⟨⟨.cte, .ordinal⟩, [dx, dy], (some dz), p⟩ "prop_time" PyVal.toOptArg = some u := by
      show (p "prop_time").bind _ = _
      rw [ho ("prop_time", .int 0) (by simp [optionalKw, ownKw, normalizeKw, commonKw, defaultNoise])]; exact h_prop_time
    have g_step_size : Est.get ⟨⟨.cte, .ordinal⟩, [dx, dy], (some dz), p⟩ "step_size" PyVal.toArg = some s := by
      show (p "step_size").bind _ = _
      rw [ho ("step_size", .int 1) (by simp [optionalKw, ownKw, normalizeKw, commonKw, defaultNoise])]; exact h_step_size
    have g_src_hist_len : Est.get ⟨⟨.cte, .ordinal⟩, [dx, dy], (some dz), p⟩ "src_hist_len" PyVal.toArg = some sh := by
      show (p "src_hist_len").bind _ = _
      rw [ho ("src_hist_len", .int 1) (by simp [optionalKw, ownKw, normalizeKw, commonKw, defaultNoise])]; exact h_src_hist_len
    have g_dest_hist_len : Est.get ⟨⟨.cte, .ordinal⟩, [dx, dy], (some dz), p⟩ "dest_hist_len" PyVal.toArg = some dh := by
      show (p "dest_hist_len").bind _ = _
      rw [ho ("dest_hist_len", .int 1) (by simp [optionalKw, ownKw, normalizeKw, commonKw, defaultNoise])]; exact h_dest_hist_len
    have g_cond_hist_len : Est.get ⟨⟨.cte, .ordinal⟩, [dx, dy], (some dz), p⟩ "cond_hist_len" PyVal.toArg = some ch := by
      show (p "cond_hist_len").bind _ = _
      rw [ho ("cond_hist_len", .int 1) (by simp [optionalKw, ownKw, normalizeKw, commonKw, defaultNoise])]; exact h_cond_hist_len
    have g_offset : Est.get ⟨⟨.cte, .ordinal⟩, [dx, dy], (some dz), p⟩ "offset" PyVal.toOptArg = some o := by
      show (p "offset").bind _ = _
      rw [ho ("offset", .none) (by simp [optionalKw, ownKw, normalizeKw, commonKw, defaultNoise])]; exact h_offset
    have g_base : Est.get ⟨⟨.cte, .ordinal⟩, [dx, dy], (some dz), p⟩ "base" PyVal.toBase = some b := by
      show (p "base").bind _ = _
      rw [ho ("base", W.b0) (by simp [optionalKw, ownKw, normalizeKw, commonKw, defaultNoise])]; exact h_base
    simp only [Est.result, Est.cteVal, bind, Option.bind, Option.getD_some, g_embedding_dim, g_stable, g_prop_time, g_step_size, g_src_hist_len, g_dest_hist_len, g_cond_hist_len, g_offset, g_base, hx, hy, Est.pair, hz, Est.ordTe, Est.te]
  obtain ⟨p, e, e', hr, ho⟩ := im_cte_eval W a kw dx dy dz ha (by
    intro r hr
    simp only [requiredKw, List.mem_cons, List.not_mem_nil, or_false] at hr
    rcases hr with rfl
    · intro hn; rw [hn] at h_embedding_dim; simp at h_embedding_dim) h4
  rw [e, e', hv p hr ho]
  exact ⟨rfl, rfl⟩

theorem e2e_cte_kernel {W : World} {dx dy : PyData} {a : PyName} {kw : Kw} {dz : PyData} (ha : Names W.lower .cte a .kernel) 
    (h4 : Only ["bandwidth", "kernel", "workers", "prop_time", "step_size", "src_hist_len", "dest_hist_len", "cond_hist_len", "offset", "base", "seed"] kw)
    {h : PyArg} {kn : Kernel} {w : Int} {u : Option PyArg} {s : PyArg} {sh : PyArg} {dh : PyArg} {ch : PyArg} {o : Option PyArg} {b : Base} 
    (h_bandwidth : (kwOr kw "bandwidth" (.none)).toArg = some h)
    (h_kernel : PyVal.toKernel W.eig (kwOr kw "kernel" (.none)) = some kn)
    (h_workers : (kwOr kw "workers" (.int 1)).toInt = some w)
    (h_prop_time : (kwOr kw "prop_time" (.int 0)).toOptArg = some u)
    (h_step_size : (kwOr kw "step_size" (.int 1)).toArg = some s)
    (h_src_hist_len : (kwOr kw "src_hist_len" (.int 1)).toArg = some sh)
    (h_dest_hist_len : (kwOr kw "dest_hist_len" (.int 1)).toArg = some dh)
    (h_cond_hist_len : (kwOr kw "cond_hist_len" (.int 1)).toArg = some ch)
    (h_offset : (kwOr kw "offset" (.none)).toOptArg = some o)
    (h_base : (kwOr kw "base" (W.b0)).toBase = some b)
    {x y : List ℝ} (hx : PyData.toSeries dx = some x) (hy : PyData.toSeries dy = some y) {z : List ℝ} (hz : PyData.toSeries dz = some z) :
    imCTE W [dx, dy] a (.val dz) kw = kernelCTE x y (some z) { srcHist := sh, destHist := dh, step := s } ch u o { bandwidth := h, kernel := kn, workers := resolveWorkers W.cpu w } b ∧
      imTE W [dx, dy] a (.val dz) kw = kernelCTE x y (some z) { srcHist := sh, destHist := dh, step := s } ch u o { bandwidth := h, kernel := kn, workers := resolveWorkers W.cpu w } b := by
  have hv : ∀ p : Kw, (∀ r ∈ requiredKw .cte .kernel, p r = kw r) →
      (∀ o ∈ optionalKw W.b0 ⟨.cte, .kernel⟩, p o.1 = some (kwOr kw o.1 o.2)) →
      Est.result W ⟨⟨.cte, .kernel⟩, [dx, dy], (some dz), p⟩ = kernelCTE x y (some z) { srcHist := sh, destHist := dh, step := s } ch u o { bandwidth := h, kernel := kn, workers := resolveWorkers W.cpu w } b := by
    intro p hr ho
    have g_bandwidth : Est.get ⟨⟨.cte, .kernel⟩, [dx, dy], (some dz), p⟩ "bandwidth" PyVal.toArg = some h := by
      show (p "bandwidth").bind _ = _
      rw [ho ("bandwidth", .none) (by simp [optionalKw, ownKw, normalizeKw, commonKw, defaultNoise])]; exact h_bandwidth
    have g_kernel : Est.get ⟨⟨.cte, .kernel⟩, [dx, dy], (some dz), p⟩ "kernel" (PyVal.toKernel W.eig) = some kn := by
      show (p "kernel").bind _ = _
      rw [ho ("kernel", .none) (by simp [optionalKw, ownKw, normalizeKw, commonKw, defaultNoise])]; exact h_kernel
    have g_workers : Est.get ⟨⟨.cte, .kernel⟩, [dx, dy], (some dz), p⟩ "workers" PyVal.toInt = some w := by
      show (p "workers").bind _ = _
      rw [ho ("workers", .int 1) (by simp [optionalKw, ownKw, normalizeKw, commonKw, defaultNoise])]; exact h_workers
    have g_prop_time : Est.get ⟨⟨.cte, .kernel⟩, [dx, dy], (some dz), p⟩ "prop_time" PyVal.toOptArg = some u := by
      show (p "prop_time").bind _ = _
      rw [ho ("prop_time", .int 0) (by simp [optionalKw, ownKw, normalizeKw, commonKw, defaultNoise])]; exact h_prop_time
    have g_step_size : Est.get ⟨⟨.cte, .kernel⟩, [dx, dy], (some dz), p⟩ "step_size" PyVal.toArg = some s := by
      show (p "step_size").bind _ = _
      rw [ho ("step_size", .int 1) (by simp [optionalKw, ownKw, normalizeKw, commonKw, defaultNoise])]; exact h_step_size
    have g_src_hist_len : Est.get ⟨⟨.cte, .kernel⟩, [dx, dy], (some dz), p⟩ "src_hist_len" PyVal.toArg = some sh := by
      show (p "src_hist_len").bind _ = _
      rw [ho ("src_hist_len", .int 1) (by simp [optionalKw, ownKw, normalizeKw, commonKw, defaultNoise])]; exact h_src_hist_len
    have g_dest_hist_len : Est.get ⟨⟨.cte, .kernel⟩, [dx, dy], (some dz), p⟩ "dest_hist_len" PyVal.toArg = some dh := by
      show (p "dest_hist_len").bind _ = _
      rw [ho ("dest_hist_len", .int 1) (by simp [optionalKw, ownKw, normalizeKw, commonKw, defaultNoise])]; exact h_dest_hist_len
    have g_cond_hist_len : Est.get ⟨⟨.cte, .kernel⟩, [dx, dy], (some dz), p⟩ "cond_hist_len" PyVal.toArg = some ch := by
      show (p "cond_hist_len").bind _ = _
      rw [ho ("cond_hist_len", .int 1) (by simp [optionalKw, ownKw, normalizeKw, commonKw, defaultNoise])]; exact h_cond_hist_len
    have g_offset : Est.get ⟨⟨.cte, .kernel⟩, [dx, dy], (some dz), p⟩ "offset" PyVal.toOptArg = some o := by
      show (p "offset").bind _ = _
      rw [ho ("offset", .none) (by simp [optionalKw, ownKw, normalizeKw, commonKw, defaultNoise])]; exact h_offset
    have g_base : Est.get ⟨⟨.cte, .kernel⟩, [dx, dy], (some dz), p⟩ "base" PyVal.toBase = some b := by
      show (p "base").bind _ = _
      rw [ho ("base", W.b0) (by simp [optionalKw, ownKw, normalizeKw, commonKw, defaultNoise])]; exact h_base
    simp only [Est.result, Est.cteVal, bind, Option.bind, Option.getD_some, g_bandwidth, g_kernel, g_workers, g_prop_time, g_step_size, g_src_hist_len, g_dest_hist_len, g_cond_hist_len, g_offset, g_base, hx, hy, Est.pair, hz, Est.kde, Est.te]
  obtain ⟨p, e, e', hr, ho⟩ := im_cte_eval W a kw dx dy dz ha (by simp [requiredKw]) h4
  rw [e, e', hv p hr ho]
  exact ⟨rfl, rfl⟩

theorem e2e_cte_metric {W : World} {dx dy : PyData} {a : PyName} {kw : Kw} {dz : PyData} (ha : Names W.lower .cte a .metric) 
    (h4 : Only ["k", "ksg_id", "noise_level", "minkowski_p", "prop_time", "step_size", "src_hist_len", "dest_hist_len", "cond_hist_len", "offset", "base", "seed"] kw)
    {k : Nat} {i : Int} {v : ℝ} {mp : PNorm} {u : Option PyArg} {s : PyArg} {sh : PyArg} {dh : PyArg} {ch : PyArg} {o : Option PyArg} {b : Base} 
    (h_k : (kwOr kw "k" (.int 4)).toNat = some k)
    (h_ksg_id : (kwOr kw "ksg_id" (.int 1)).toInt = some i)
    (h_noise_level : (kwOr kw "noise_level" (.num (1 / 10 ^ 8))).toNoise = some v)
    (h_minkowski_p : (kwOr kw "minkowski_p" (.inf)).toPNorm = some mp)
    (h_prop_time : (kwOr kw "prop_time" (.int 0)).toOptArg = some u)
    (h_step_size : (kwOr kw "step_size" (.int 1)).toArg = some s)
    (h_src_hist_len : (kwOr kw "src_hist_len" (.int 1)).toArg = some sh)
    (h_dest_hist_len : (kwOr kw "dest_hist_len" (.int 1)).toArg = some dh)
    (h_cond_hist_len : (kwOr kw "cond_hist_len" (.int 1)).toArg = some ch)
    (h_offset : (kwOr kw "offset" (.none)).toOptArg = some o)
    (h_base : (kwOr kw "base" (W.b0)).toBase = some b)
    {x y : List ℝ} (hx : PyData.toSeries dx = some x) (hy : PyData.toSeries dy = some y) {z : List ℝ} (hz : PyData.toSeries dz = some z) :
    imCTE W [dx, dy] a (.val dz) kw = ksgCTE x y (some z) { srcHist := sh, destHist := dh, step := s } ch u o { k := k, ksgId := i, p := mp } (W.noise1 v 0) (W.noise1 v 1) (W.noise1 v 2) b ∧
      imTE W [dx, dy] a (.val dz) kw = ksgCTE x y (some z) { srcHist := sh, destHist := dh, step := s } ch u o { k := k, ksgId := i, p := mp } (W.noise1 v 0) (W.noise1 v 1) (W.noise1 v 2) b := by
  have hv : ∀ p : Kw, (∀ r ∈ requiredKw .cte .metric, p r = kw r) →
      (∀ o ∈ optionalKw W.b0 ⟨.cte, .metric⟩, p o.1 = some (kwOr kw o.1 o.2)) →
      Est.result W ⟨⟨.cte, .metric⟩, [dx, dy], (some dz), p⟩ = ksgCTE x y (some z) { srcHist := sh, destHist := dh, step := s } ch u o { k := k, ksgId := i, p := mp } (W.noise1 v 0) (W.noise1 v 1) (W.noise1 v 2) b := by
    intro p hr ho
    have g_k : Est.get ⟨⟨.cte, .metric⟩, [dx, dy], (some dz), p⟩ "k" PyVal.toNat = some k := by
      show (p "k").bind _ = _
      rw [ho ("k", .int 4) (by simp [optionalKw, ownKw, normalizeKw, commonKw, defaultNoise])]; exact h_k
    have g_ksg_id : Est.get ⟨⟨.cte, .metric⟩, [dx, dy], (some dz), p⟩ "ksg_id" PyVal.toInt = some i := by
      show (p "ksg_id").bind _ = _
      rw [ho ("ksg_id", .int 1) (by simp [optionalKw, ownKw, normalizeKw, commonKw, defaultNoise])]; exact h_ksg_id
    have g_noise_level : Est.get ⟨⟨.cte, .metric⟩, [dx, dy], (some dz), p⟩ "noise_level" PyVal.toNoise = some v := by
      show (p "noise_level").bind _ = _
      rw [ho ("noise_level", .num (1 / 10 ^ 8)) (by simp [optionalKw, ownKw, normalizeKw, commonKw, defaultNoise])]; exact h_noise_level
    have g_minkowski_p : Est.get ⟨⟨.cte, .metric⟩, [dx, dy], (some dz), p⟩ "minkowski_p" PyVal.toPNorm = some mp := by
      show (p "minkowski_p").bind _ = _
      rw [ho ("minkowski_p", .inf) (by simp [optionalKw, ownKw, normalizeKw, commonKw, defaultNoise])]; exact h_minkowski_p
    have g_prop_time : Est.get ⟨⟨.cte, .metric⟩, [dx, dy], (some dz), p⟩ "prop_time" PyVal.toOptArg = some u := by
      show (p "prop_time").bind _ = _
      rw [ho ("prop_time", .int 0) (by simp [optionalKw, ownKw, normalizeKw, commonKw, defaultNoise])]; exact h_prop_time
    have g_step_size : Est.get ⟨⟨.cte, .metric⟩, [dx, dy], (some dz), p⟩ "step_size" PyVal.toArg = some s := by
      show (p "step_size").bind _ = _
      rw [ho ("step_size", .int 1) (by simp [optionalKw, ownKw, normalizeKw, commonKw, defaultNoise])]; exact h_step_size
    have g_src_hist_len : Est.get ⟨⟨.cte, .metric⟩, [dx, dy], (some dz), p⟩ "src_hist_len" PyVal.toArg = some sh := by
      show (p "src_hist_len").bind _ = _
      rw [ho ("src_hist_len", .int 1) (by simp [optionalKw, ownKw, normalizeKw, commonKw, defaultNoise])]; exact h_src_hist_len
    have g_dest_hist_len : Est.get ⟨⟨.cte, .metric⟩, [dx, dy], (some dz), p⟩ "dest_hist_len" PyVal.toArg = some dh := by
      show (p "dest_hist_len").bind _ = _
      rw [ho ("dest_hist_len", .int 1) (by simp [optionalKw, ownKw, normalizeKw, commonKw, defaultNoise])]; exact h_dest_hist_len
    have g_cond_hist_len : Est.get ⟨⟨.cte, .metric⟩, [dx, dy], (some dz), p⟩ "cond_hist_len" PyVal.toArg = some ch := by
      show (p "cond_hist_len").bind _ = _
      rw [ho ("cond_hist_len", .int 1) (by simp [optionalKw, ownKw, normalizeKw, commonKw, defaultNoise])]; exact h_cond_hist_len
    have g_offset : Est.get ⟨⟨.cte, .metric⟩, [dx, dy], (some dz), p⟩ "offset" PyVal.toOptArg = some o := by
      show (p "offset").bind _ = _
      rw [ho ("offset", .none) (by simp [optionalKw, ownKw, normalizeKw, commonKw, defaultNoise])]; exact h_offset
    have g_base : Est.get ⟨⟨.cte, .metric⟩, [dx, dy], (some dz), p⟩ "base" PyVal.toBase = some b := by
      show (p "base").bind _ = _
      rw [ho ("base", W.b0) (by simp [optionalKw, ownKw, normalizeKw, commonKw, defaultNoise])]; exact h_base
    simp only [Est.result, Est.cteVal, bind, Option.bind, Option.getD_some, g_k, g_ksg_id, g_noise_level, g_minkowski_p, g_prop_time, g_step_size, g_src_hist_len, g_dest_hist_len, g_cond_hist_len, g_offset, g_base, hx, hy, Est.pair, hz, Est.ksg, Est.te]
  obtain ⟨p, e, e', hr, ho⟩ := im_cte_eval W a kw dx dy dz ha (by simp [requiredKw]) h4
  rw [e, e', hv p hr ho]
  exact ⟨rfl, rfl⟩

theorem e2e_cte_renyi {W : World} {dx dy : PyData} {a : PyName} {kw : Kw} {dz : PyData} (ha : Names W.lower .cte a .renyi) 
    (h4 : Only ["k", "alpha", "noise_level", "prop_time", "step_size", "src_hist_len", "dest_hist_len", "cond_hist_len", "offset", "base", "seed"] kw)
    {k : PyArg} {q : PyArg} {v : ℝ} {u : Option PyArg} {s : PyArg} {sh : PyArg} {dh : PyArg} {ch : PyArg} {o : Option PyArg} {b : Base} 
    (h_k : (kwOr kw "k" (.int 4)).toArg = some k)
    (h_alpha : (kwOr kw "alpha" (.none)).toArg = some q)
    (h_noise_level : (kwOr kw "noise_level" (.num (1 / 10 ^ 8))).toNoise = some v)
    (h_prop_time : (kwOr kw "prop_time" (.int 0)).toOptArg = some u)
    (h_step_size : (kwOr kw "step_size" (.int 1)).toArg = some s)
    (h_src_hist_len : (kwOr kw "src_hist_len" (.int 1)).toArg = some sh)
    (h_dest_hist_len : (kwOr kw "dest_hist_len" (.int 1)).toArg = some dh)
    (h_cond_hist_len : (kwOr kw "cond_hist_len" (.int 1)).toArg = some ch)
    (h_offset : (kwOr kw "offset" (.none)).toOptArg = some o)
    (h_base : (kwOr kw "base" (W.b0)).toBase = some b)
    {x y : List ℝ} (hx : PyData.toSeries dx = some x) (hy : PyData.toSeries dy = some y) {z : List ℝ} (hz : PyData.toSeries dz = some z) :
    imCTE W [dx, dy] a (.val dz) kw = expCTE renyiVal x y (some z) { srcHist := sh, destHist := dh, step := s } ch u o k q (W.noise1 v 0) (W.noise1 v 1) (W.noise1 v 2) b ∧
      imTE W [dx, dy] a (.val dz) kw = expCTE renyiVal x y (some z) { srcHist := sh, destHist := dh, step := s } ch u o k q (W.noise1 v 0) (W.noise1 v 1) (W.noise1 v 2) b := by
  have hv : ∀ p : Kw, (∀ r ∈ requiredKw .cte .renyi, p r = kw r) →
      (∀ o ∈ optionalKw W.b0 ⟨.cte, .renyi⟩, p o.1 = some (kwOr kw o.1 o.2)) →
      Est.result W ⟨⟨.cte, .renyi⟩, [dx, dy], (some dz), p⟩ = expCTE renyiVal x y (some z) { srcHist := sh, destHist := dh, step := s } ch u o k q (W.noise1 v 0) (W.noise1 v 1) (W.noise1 v 2) b := by
    intro p hr ho
    have g_k : Est.get ⟨⟨.cte, .renyi⟩, [dx, dy], (some dz), p⟩ "k" PyVal.toArg = some k := by
      show (p "k").bind _ = _
      rw [ho ("k", .int 4) (by simp [optionalKw, ownKw, normalizeKw, commonKw, defaultNoise])]; exact h_k
    have g_alpha : Est.get ⟨⟨.cte, .renyi⟩, [dx, dy], (some dz), p⟩ "alpha" PyVal.toArg = some q := by
      show (p "alpha").bind _ = _
      rw [ho ("alpha", .none) (by simp [optionalKw, ownKw, normalizeKw, commonKw, defaultNoise])]; exact h_alpha
    have g_noise_level : Est.get ⟨⟨.cte, .renyi⟩, [dx, dy], (some dz), p⟩ "noise_level" PyVal.toNoise = some v := by
      show (p "noise_level").bind _ = _
      rw [ho ("noise_level", .num (1 / 10 ^ 8)) (by simp [optionalKw, ownKw, normalizeKw, commonKw, defaultNoise])]; exact h_noise_level
    have g_prop_time : Est.get ⟨⟨.cte, .renyi⟩, [dx, dy], (some dz), p⟩ "prop_time" PyVal.toOptArg = some u := by
      show (p "prop_time").bind _ = _
      rw [ho ("prop_time", .int 0) (by simp [optionalKw, ownKw, normalizeKw, commonKw, defaultNoise])]; exact h_prop_time
    have g_step_size : Est.get ⟨⟨.cte, .renyi⟩, [dx, dy], (some dz), p⟩ "step_size" PyVal.toArg = some s := by
      show (p "step_size").bind _ = _
      rw [ho ("step_size", .int 1) (by simp [optionalKw, ownKw, normalizeKw, commonKw, defaultNoise])]; exact h_step_size
    have g_src_hist_len : Est.get ⟨⟨.cte, .renyi⟩, [dx, dy], (some dz), p⟩ "src_hist_len" PyVal.toArg = some sh := by
      show (p "src_hist_len").bind _ = _
      rw [ho ("src_hist_len", .int 1) (by simp [optionalKw, ownKw, normalizeKw, commonKw, defaultNoise])]; exact h_src_hist_len
    have g_dest_hist_len : Est.get ⟨⟨.cte, .renyi⟩, [dx, dy], (some dz), p⟩ "dest_hist_len" PyVal.toArg = some dh := by
      show (p "dest_hist_len").bind _ = _
      rw [ho ("dest_hist_len", .int 1) (by simp [optionalKw, ownKw, normalizeKw, commonKw, defaultNoise])]; exact h_dest_hist_len
    have g_cond_hist_len : Est.get ⟨⟨.cte, .renyi⟩, [dx, dy], (some dz), p⟩ "cond_hist_len" PyVal.toArg = some ch := by
      show (p "cond_hist_len").bind _ = _
      rw [ho ("cond_hist_len", .int 1) (by simp [optionalKw, ownKw, normalizeKw, commonKw, defaultNoise])]; exact h_cond_hist_len
    have g_offset : Est.get ⟨⟨.cte, .renyi⟩, [dx, dy], (some dz), p⟩ "offset" PyVal.toOptArg = some o := by
      show (p "offset").bind _ = _
      rw [ho ("offset", .none) (by simp [optionalKw, ownKw, normalizeKw, commonKw, defaultNoise])]; exact h_offset
    have g_base : Est.get ⟨⟨.cte, .renyi⟩, [dx, dy], (some dz), p⟩ "base" PyVal.toBase = some b := by
      show (p "base").bind _ = _
      rw [ho ("base", W.b0) (by simp [optionalKw, ownKw, normalizeKw, commonKw, defaultNoise])]; exact h_base
    simp only [Est.result, Est.cteVal, bind, Option.bind, Option.getD_some, g_k, g_alpha, g_noise_level, g_prop_time, g_step_size, g_src_hist_len, g_dest_hist_len, g_cond_hist_len, g_offset, g_base, hx, hy, Est.pair, hz, Est.te, expFam]
  obtain ⟨p, e, e', hr, ho⟩ := im_cte_eval W a kw dx dy dz ha (by simp [requiredKw]) h4
  rw [e, e', hv p hr ho]
  exact ⟨rfl, rfl⟩

theorem e2e_cte_tsallis {W : World} {dx dy : PyData} {a : PyName} {kw : Kw} {dz : PyData} (ha : Names W.lower .cte a .tsallis) 
    (h4 : Only ["k", "q", "noise_level", "prop_time", "step_size", "src_hist_len", "dest_hist_len", "cond_hist_len", "offset", "base", "seed"] kw)
    {k : PyArg} {q : PyArg} {v : ℝ} {u : Option PyArg} {s : PyArg} {sh : PyArg} {dh : PyArg} {ch : PyArg} {o : Option PyArg} {b : Base} 
    (h_k : (kwOr kw "k" (.int 4)).toArg = some k)
    (h_q : (kwOr kw "q" (.none)).toArg = some q)
    (h_noise_level : (kwOr kw "noise_level" (.num (1 / 10 ^ 8))).toNoise = some v)
    (h_prop_time : (kwOr kw "prop_time" (.int 0)).toOptArg = some u)
    (h_step_size : (kwOr kw "step_size" (.int 1)).toArg = some s)
    (h_src_hist_len : (kwOr kw "src_hist_len" (.int 1)).toArg = some sh)
    (h_dest_hist_len : (kwOr kw "dest_hist_len" (.int 1)).toArg = some dh)
    (h_cond_hist_len : (kwOr kw "cond_hist_len" (.int 1)).toArg = some ch)
    (h_offset : (kwOr kw "offset" (.none)).toOptArg = some o)
    (h_base : (kwOr kw "base" (W.b0)).toBase = some b)
    {x y : List ℝ} (hx : PyData.toSeries dx = some x) (hy : PyData.toSeries dy = some y) {z : List ℝ} (hz : PyData.toSeries dz = some z) :
    imCTE W [dx, dy] a (.val dz) kw = expCTE tsallisVal x y (some z) { srcHist := sh, destHist := dh, step := s } ch u o k q (W.noise1 v 0) (W.noise1 v 1) (W.noise1 v 2) b ∧
      imTE W [dx, dy] a (.val dz) kw = expCTE tsallisVal x y (some z) { srcHist := sh, destHist := dh, step := s } ch u o k q (W.noise1 v 0) (W.noise1 v 1) (W.noise1 v 2) b := by
  have hv : ∀ p : Kw, (∀ r ∈ requiredKw .cte .tsallis, p r = kw r) →
      (∀ o ∈ optionalKw W.b0 ⟨.cte, .tsallis⟩, p o.1 = some (kwOr kw o.1 o.2)) →
      Est.result W ⟨⟨.cte, .tsallis⟩, [dx, dy], (some dz), p⟩ = expCTE tsallisVal x y (some z) { srcHist := sh, destHist := dh, step := s } ch u o k q (W.noise1 v 0) (W.noise1 v 1) (W.noise1 v 2) b := by
    intro p hr ho
    have g_k : Est.get ⟨⟨.cte, .tsallis⟩, [dx, dy], (some dz), p⟩ "k" PyVal.toArg = some k := by
      show (p "k").bind _ = _
      rw [ho ("k", .int 4) (by simp [optionalKw, ownKw, normalizeKw, commonKw, defaultNoise])]; exact h_k
    have g_q : Est.get ⟨⟨.cte, .tsallis⟩, [dx, dy], (some dz), p⟩ "q" PyVal.toArg = some q := by
      show (p "q").bind _ = _
      rw [ho ("q", .none) (by simp [optionalKw, ownKw, normalizeKw, commonKw, defaultNoise])]; exact h_q
    have g_noise_level : Est.get ⟨⟨.cte, .tsallis⟩, [dx, dy], (some dz), p⟩ "noise_level" PyVal.toNoise = some v := by
      show (p "noise_level").bind _ = _
      rw [ho ("noise_level", .num (1 / 10 ^ 8)) (by simp [optionalKw, ownKw, normalizeKw, commonKw, defaultNoise])]; exact h_noise_level
    have g_prop_time : Est.get ⟨⟨.cte, .tsallis⟩, [dx, dy], (some dz), p⟩ "prop_time" PyVal.toOptArg = some u := by
      show (p "prop_time").bind _ = _
      rw [ho ("prop_time", .int 0) (by simp [optionalKw, ownKw, normalizeKw, commonKw, defaultNoise])]; exact h_prop_time
    have g_step_size : Est.get ⟨⟨.cte, .tsallis⟩, [dx, dy], (some dz), p⟩ "step_size" PyVal.toArg = some s := by
      show (p "step_size").bind _ = _
      rw [ho ("step_size", .int 1) (by simp [optionalKw, ownKw, normalizeKw, commonKw, defaultNoise])]; exact h_step_size
    have g_src_hist_len : Est.get ⟨⟨.cte, .tsallis⟩, [dx, dy], (some dz), p⟩ "src_hist_len" PyVal.toArg = some sh := by
      show (p "src_hist_len").bind _ = _
      rw [ho ("src_hist_len", .int 1) (by simp [optionalKw, ownKw, normalizeKw, commonKw, defaultNoise])]; exact h_src_hist_len
    have g_dest_hist_len : Est.get ⟨⟨.cte, .tsallis⟩, [dx, dy], (some dz), p⟩ "dest_hist_len" PyVal.toArg = some dh := by
      show (p "dest_hist_len").bind _ = _
      rw [ho ("dest_hist_len", .int 1) (by simp [optionalKw, ownKw, normalizeKw, commonKw, defaultNoise])]; exact h_dest_hist_len
    have g_cond_hist_len : Est.get ⟨⟨.cte, .tsallis⟩, [dx, dy], (some dz), p⟩ "cond_hist_len" PyVal.toArg = some ch := by
      show (p "cond_hist_len").bind _ = _
      rw [ho ("cond_hist_len", .int 1) (by simp [optionalKw, ownKw, normalizeKw, commonKw, defaultNoise])]; exact h_cond_hist_len
    have g_offset : Est.get ⟨⟨.cte, .tsallis⟩, [dx, dy], (some dz), p⟩ "offset" PyVal.toOptArg = some o := by
      show (p "offset").bind _ = _
      rw [ho ("offset", .none) (by simp [optionalKw, ownKw, normalizeKw, commonKw, defaultNoise])]; exact h_offset
    have g_base : Est.get ⟨⟨.cte, .tsallis⟩, [dx, dy], (some dz), p⟩ "base" PyVal.toBase = some b := by
      show (p "base").bind _ = _
      rw [ho ("base", W.b0) (by simp [optionalKw, ownKw, normalizeKw, commonKw, defaultNoise])]; exact h_base
    simp only [Est.result, Est.cteVal, bind, Option.bind, Option.getD_some, g_k, g_q, g_noise_level, g_prop_time, g_step_size, g_src_hist_len, g_dest_hist_len, g_cond_hist_len, g_offset, g_base, hx, hy, Est.pair, hz, Est.te, expFam]
  obtain ⟨p, e, e', hr, ho⟩ := im_cte_eval W a kw dx dy dz ha (by simp [requiredKw]) h4
  rw [e, e', hv p hr ho]
  exact ⟨rfl, rfl⟩

end Verif
