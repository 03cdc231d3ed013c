import Verif.Props.EndToEndVec2
import Verif.Props.Complete

/-!
# C90: two-dimensional arrays and joint conditions through the public functions (ordinal series, discrete mutual information)
-/

set_option linter.unusedSimpArgs false
set_option linter.unusedVariables false

namespace Verif

open Spec

theorem toSeries_of_twoD {d : PyData} (h : d.twoD = true) : d.toSeries = none := by cases d <;> cases h <;> rfl

theorem pair_of_twoD {c : EstClass} {dx dy : PyData} {z : Option PyData} {p : Kw} (h : dx.twoD = true ∨ dy.twoD = true) :
    Est.pair ⟨c, [dx, dy], z, p⟩ PyData.toSeries = none := by
  simp only [Est.pair, bind, Option.bind]
  rcases h with h | h
  · rw [toSeries_of_twoD h]
  · rw [toSeries_of_twoD h]; cases dx.toSeries <;> rfl

theorem e2e_vte_ordinal {W : World} {dx dy : PyData} {a : PyName} {kw : Kw} {cond : CondKw PyData} (hc : cond.isVal = false) (ha : Names W.lower .te a .ordinal) 
    (h4 : Only ["embedding_dim", "stable", "prop_time", "step_size", "src_hist_len", "dest_hist_len", "cond_hist_len", "offset", "base", "seed"] kw)
    {d : PyArg} {st : Bool} {u : Option PyArg} {s : PyArg} {sh : PyArg} {dh : PyArg} {o : Option PyArg} {b : Base} 
    (h_embedding_dim : (kw "embedding_dim").bind PyVal.toArg = some d)
    (h_stable : (kwOr kw "stable" (.bool false)).toBool = some st)
    (h_prop_time : (kwOr kw "prop_time" (.int 0)).toOptArg = some u)
    (h_step_size : (kwOr kw "step_size" (.int 1)).toArg = some s)
    (h_src_hist_len : (kwOr kw "src_hist_len" (.int 1)).toArg = some sh)
    (h_dest_hist_len : (kwOr kw "dest_hist_len" (.int 1)).toArg = some dh)
    (h_offset : (kwOr kw "offset" (.none)).toOptArg = some o)
    (h_base : (kwOr kw "base" (W.b0)).toBase = some b)
    {x y : List (List ℝ)} (hx : PyData.toRows dx = some x) (hy : PyData.toRows dy = some y) (h2 : dx.twoD = true ∨ dy.twoD = true) :
    imTE W.vec [dx, dy] a cond kw = ordTEVec x y { dim := d, te := { srcHist := sh, destHist := dh, step := s }, stable := st } u o := by
  have hv : ∀ p : Kw, (∀ r ∈ requiredKw .te .ordinal, p r = kw r) →
      (∀ o ∈ optionalKw W.b0 ⟨.te, .ordinal⟩, p o.1 = some (kwOr kw o.1 o.2)) →
      Est.result W.vec ⟨⟨.te, .ordinal⟩, [dx, dy], none, p⟩ = ordTEVec x y { dim := d, te := { srcHist := sh, destHist := dh, step := s }, stable := st } u o := by
    intro p hr ho
    have g_embedding_dim : Est.get ⟨⟨.te, .ordinal⟩, [dx, dy], none, p⟩ "embedding_dim" PyVal.toArg = some d := by
      show (p "embedding_dim").bind _ = _
      rw [hr "embedding_dim" (by simp [requiredKw])]; exact h_embedding_dim
    have g_stable : Est.get ⟨⟨.te, .ordinal⟩, [dx, dy], none, p⟩ "stable" PyVal.toBool = some st := by
      show (p "stable").bind _ = _
      rw [ho ("stable", .bool false) (by simp [optionalKw, ownKw, normalizeKw, commonKw, defaultNoise])]; exact h_stable
    have g_prop_time : Est.get ⟨⟨.te, .ordinal⟩, [dx, dy], none, p⟩ "prop_time" PyVal.toOptArg = some u := by
      show (p "prop_time").bind _ = _
      rw [ho ("prop_time", .int 0) (by simp [optionalKw, ownKw, normalizeKw, commonKw, defaultNoise])]; exact h_prop_time
    have g_step_size : Est.get ⟨⟨.te, .ordinal⟩, [dx, dy], none, p⟩ "step_size" PyVal.toArg = some s := by
      show (p "step_size").bind _ = _
      rw [ho ("step_size", .int 1) (by simp [optionalKw, ownKw, normalizeKw, commonKw, defaultNoise])]; exact h_step_size
    have g_src_hist_len : Est.get ⟨⟨.te, .ordinal⟩, [dx, dy], none, p⟩ "src_hist_len" PyVal.toArg = some sh := by
      show (p "src_hist_len").bind _ = _
      rw [ho ("src_hist_len", .int 1) (by simp [optionalKw, ownKw, normalizeKw, commonKw, defaultNoise])]; exact h_src_hist_len
    have g_dest_hist_len : Est.get ⟨⟨.te, .ordinal⟩, [dx, dy], none, p⟩ "dest_hist_len" PyVal.toArg = some dh := by
      show (p "dest_hist_len").bind _ = _
      rw [ho ("dest_hist_len", .int 1) (by simp [optionalKw, ownKw, normalizeKw, commonKw, defaultNoise])]; exact h_dest_hist_len
    have g_offset : Est.get ⟨⟨.te, .ordinal⟩, [dx, dy], none, p⟩ "offset" PyVal.toOptArg = some o := by
      show (p "offset").bind _ = _
      rw [ho ("offset", .none) (by simp [optionalKw, ownKw, normalizeKw, commonKw, defaultNoise])]; exact h_offset
    have g_base : Est.get ⟨⟨.te, .ordinal⟩, [dx, dy], none, p⟩ "base" PyVal.toBase = some b := by
      show (p "base").bind _ = _
      rw [ho ("base", W.b0) (by simp [optionalKw, ownKw, normalizeKw, commonKw, defaultNoise])]; exact h_base
    have hp2 : Est.pair ⟨⟨.te, .ordinal⟩, [dx, dy], none, p⟩ PyData.toRows = some (x, y) := by
      simp only [Est.pair, bind, Option.bind, hx, hy]
    refine result_vec ?_
    simp (maxSteps := 2000000) only [Est.vecVal, Est.teVec, Option.bind_eq_bind, Option.bind_some, pair_of_twoD h2, hp2, g_embedding_dim, g_stable, g_prop_time, g_step_size, g_src_hist_len, g_dest_hist_len, g_offset, g_base, Est.ordTe, Est.te]
  obtain ⟨p, e, hr, ho⟩ := im_te_eval W.vec a cond kw dx dy ha hc (by
    intro r hr
    simp only [requiredKw, List.mem_cons, List.not_mem_nil, or_false] at hr
    rcases hr with rfl
    · intro hn; rw [hn] at h_embedding_dim; simp at h_embedding_dim) h4
  rw [e, hv p hr ho]

theorem e2e_vcte_ordinal {W : World} {dx dy : PyData} {a : PyName} {kw : Kw} {dz : PyData} (ha : Names W.lower .cte a .ordinal) 
    (h4 : Only ["embedding_dim", "stable", "prop_time", "step_size", "src_hist_len", "dest_hist_len", "cond_hist_len", "offset", "base", "seed"] kw)
    {d : PyArg} {st : Bool} {u : Option PyArg} {s : PyArg} {sh : PyArg} {dh : PyArg} {ch : PyArg} {o : Option PyArg} {b : Base} 
    (h_embedding_dim : (kw "embedding_dim").bind PyVal.toArg = some d)
    (h_stable : (kwOr kw "stable" (.bool false)).toBool = some st)
    (h_prop_time : (kwOr kw "prop_time" (.int 0)).toOptArg = some u)
    (h_step_size : (kwOr kw "step_size" (.int 1)).toArg = some s)
    (h_src_hist_len : (kwOr kw "src_hist_len" (.int 1)).toArg = some sh)
    (h_dest_hist_len : (kwOr kw "dest_hist_len" (.int 1)).toArg = some dh)
    (h_cond_hist_len : (kwOr kw "cond_hist_len" (.int 1)).toArg = some ch)
    (h_offset : (kwOr kw "offset" (.none)).toOptArg = some o)
    (h_base : (kwOr kw "base" (W.b0)).toBase = some b)
    {x y z : List (List ℝ)} (hx : PyData.toRows dx = some x) (hy : PyData.toRows dy = some y) (hz : PyData.toRows dz = some z)
    (h2 : dx.twoD = true ∨ dy.twoD = true ∨ dz.twoD = true) :
    imCTE W.vec [dx, dy] a (.val dz) kw = ordCTEVec dz.twoD x y z { dim := d, te := { srcHist := sh, destHist := dh, step := s }, stable := st } u o ∧
      imTE W.vec [dx, dy] a (.val dz) kw = ordCTEVec dz.twoD x y z { dim := d, te := { srcHist := sh, destHist := dh, step := s }, stable := st } u o := by
  have hv : ∀ p : Kw, (∀ r ∈ requiredKw .cte .ordinal, p r = kw r) →
      (∀ o ∈ optionalKw W.b0 ⟨.cte, .ordinal⟩, p o.1 = some (kwOr kw o.1 o.2)) →
      Est.result W.vec ⟨⟨.cte, .ordinal⟩, [dx, dy], (some dz), p⟩ = ordCTEVec dz.twoD x y z { dim := d, te := { srcHist := sh, destHist := dh, step := s }, stable := st } u o := by
    intro p hr ho
    have g_embedding_dim : Est.get ⟨⟨.cte, .ordinal⟩, [dx, dy], (some dz), p⟩ "embedding_dim" PyVal.toArg = some d := by
      show (p "embedding_dim").bind _ = _
      rw [hr "embedding_dim" (by simp [requiredKw])]; exact h_embedding_dim
    have g_stable : Est.get ⟨⟨.cte, .ordinal⟩, [dx, dy], (some dz), p⟩ "stable" PyVal.toBool = some st := by
      show (p "stable").bind _ = _
      rw [ho ("stable", .bool false) (by simp [optionalKw, ownKw, normalizeKw, commonKw, defaultNoise])]; exact h_stable
    have g_prop_time : Est.get ⟨⟨.cte, .ordinal⟩, [dx, dy], (some dz), p⟩ "prop_time" PyVal.toOptArg = some u := by
      show (p "prop_time").bind _ = _
      rw [ho ("prop_time", .int 0) (by simp [optionalKw, ownKw, normalizeKw, commonKw, defaultNoise])]; exact h_prop_time
    have g_step_size : Est.get ⟨⟨.cte, .ordinal⟩, [dx, dy], (some dz), p⟩ "step_size" PyVal.toArg = some s := by
      show (p "step_size").bind _ = _
      rw [ho ("step_size", .int 1) (by simp [optionalKw, ownKw, normalizeKw, commonKw, defaultNoise])]; exact h_step_size
    have g_src_hist_len : Est.get ⟨⟨.cte, .ordinal⟩, [dx, dy], (some dz), p⟩ "src_hist_len" PyVal.toArg = some sh := by
      show (p "src_hist_len").bind _ = _
      rw [ho ("src_hist_len", .int 1) (by simp [optionalKw, ownKw, normalizeKw, commonKw, defaultNoise])]; exact h_src_hist_len
    have g_dest_hist_len : Est.get ⟨⟨.cte, .ordinal⟩, [dx, dy], (some dz), p⟩ "dest_hist_len" PyVal.toArg = some dh := by
      show (p "dest_hist_len").bind _ = _
      rw [ho ("dest_hist_len", .int 1) (by simp [optionalKw, ownKw, normalizeKw, commonKw, defaultNoise])]; exact h_dest_hist_len
    have g_cond_hist_len : Est.get ⟨⟨.cte, .ordinal⟩, [dx, dy], (some dz), p⟩ "cond_hist_len" PyVal.toArg = some ch := by
      show (p "cond_hist_len").bind _ = _
      rw [ho ("cond_hist_len", .int 1) (by simp [optionalKw, ownKw, normalizeKw, commonKw, defaultNoise])]; exact h_cond_hist_len
    have g_offset : Est.get ⟨⟨.cte, .ordinal⟩, [dx, dy], (some dz), p⟩ "offset" PyVal.toOptArg = some o := by
      show (p "offset").bind _ = _
      rw [ho ("offset", .none) (by simp [optionalKw, ownKw, normalizeKw, commonKw, defaultNoise])]; exact h_offset
    have g_base : Est.get ⟨⟨.cte, .ordinal⟩, [dx, dy], (some dz), p⟩ "base" PyVal.toBase = some b := by
      show (p "base").bind _ = _
      rw [ho ("base", W.b0) (by simp [optionalKw, ownKw, normalizeKw, commonKw, defaultNoise])]; exact h_base
    have hp2 : Est.pair ⟨⟨.cte, .ordinal⟩, [dx, dy], some dz, p⟩ PyData.toRows = some (x, y) := by
      simp only [Est.pair, bind, Option.bind, hx, hy]
    refine result_vec ?_
    have hp3 : Est.pair ⟨⟨.cte, .ordinal⟩, [dx, dy], some dz, p⟩ PyData.toSeries = none ∨ dz.toSeries = none := by
      rcases h2 with h | h | h
      · exact .inl (pair_of_twoD (.inl h))
      · exact .inl (pair_of_twoD (.inr h))
      · exact .inr (toSeries_of_twoD h)
    simp (maxSteps := 2000000) only [Est.vecVal, Est.cteVec, Option.bind_eq_bind, Option.bind_some, hp2, g_embedding_dim, g_stable, g_prop_time, g_step_size, g_src_hist_len, g_dest_hist_len, g_cond_hist_len, g_offset, g_base, hz, Est.ordTe, Est.te]
    rcases hp3 with h | h <;> rw [h]
    cases Est.pair ⟨⟨.cte, .ordinal⟩, [dx, dy], some dz, p⟩ PyData.toSeries <;> rfl
  obtain ⟨p, e, e', hr, ho⟩ := im_cte_eval W.vec a kw dx dy dz ha (by
    intro r hr
    simp only [requiredKw, List.mem_cons, List.not_mem_nil, or_false] at hr
    rcases hr with rfl
    · intro hn; rw [hn] at h_embedding_dim; simp at h_embedding_dim) h4
  rw [e, e', hv p hr ho]
  exact ⟨rfl, rfl⟩

theorem e2e_vmi_discrete {W : World} {data : List PyData} {a : PyName} {kw : Kw} {cond : CondKw PyData} (hc : cond.isVal = false) (ha : Names W.lower .mi a .discrete) (hd : 2 ≤ data.length) 
    (h4 : Only ["offset", "base", "seed"] kw)
    {o : Option Int} {b : Base} 
    (h_offset : (kwOr kw "offset" (.int 0)).toOptInt = some o)
    (h_base : (kwOr kw "base" (W.b0)).toBase = some b)
    {r : Except Exc ℝ}
    (hx : ∀ p : Kw, Est.get ⟨⟨.mi, .discrete⟩, data, none, p⟩ "base" PyVal.toBase = some b →
      Est.get ⟨⟨.mi, .discrete⟩, data, none, p⟩ "offset" PyVal.toOptInt = some o → Est.miVec ⟨⟨.mi, .discrete⟩, data, none, p⟩ = some r) :
    imMI W.vec data a cond kw = r := by
  have hv : ∀ p : Kw, (∀ r ∈ requiredKw .mi .discrete, p r = kw r) →
      (∀ o ∈ optionalKw W.b0 ⟨.mi, .discrete⟩, p o.1 = some (kwOr kw o.1 o.2)) →
      Est.result W.vec ⟨⟨.mi, .discrete⟩, data, none, p⟩ = r := by
    intro p hr ho
    have g_offset : Est.get ⟨⟨.mi, .discrete⟩, data, none, p⟩ "offset" PyVal.toOptInt = some o := by
      show (p "offset").bind _ = _
      rw [ho ("offset", .int 0) (by simp [optionalKw, ownKw, normalizeKw, commonKw, defaultNoise])]; exact h_offset
    have g_base : Est.get ⟨⟨.mi, .discrete⟩, data, none, p⟩ "base" PyVal.toBase = some b := by
      show (p "base").bind _ = _
      rw [ho ("base", W.b0) (by simp [optionalKw, ownKw, normalizeKw, commonKw, defaultNoise])]; exact h_base
    exact result_vec (by simp only [Est.vecVal, hx p g_base g_offset])
  obtain ⟨p, e, hr, ho⟩ := im_mi_eval W.vec data a cond kw ha hc hd (by simp [requiredKw]) h4
  rw [e, hv p hr ho]

theorem e2e_vcmi_discrete {W : World} {data : List PyData} {a : PyName} {kw : Kw} {dz : PyData} (ha : Names W.lower .cmi a .discrete) (hd : 2 ≤ data.length) 
    (h4 : Only ["offset", "base", "seed"] kw)
    {o : Option Int} {b : Base} 
    (h_offset : (kwOr kw "offset" (.int 0)).toOptInt = some o)
    (h_base : (kwOr kw "base" (W.b0)).toBase = some b)
    {xs : List (List Int)} (hx : data.mapM PyData.toInts = some xs) {z : CondArg} (hz : PyData.toCondArg dz = some z) :
    imCMI W.vec data a (.val dz) kw = discreteCMI xs (some z) o b false ∧
      imMI W.vec data a (.val dz) kw = discreteCMI xs (some z) o b false := by
  have hv : ∀ p : Kw, (∀ r ∈ requiredKw .cmi .discrete, p r = kw r) →
      (∀ o ∈ optionalKw W.b0 ⟨.cmi, .discrete⟩, p o.1 = some (kwOr kw o.1 o.2)) →
      Est.result W.vec ⟨⟨.cmi, .discrete⟩, data, (some dz), p⟩ = discreteCMI xs (some z) o b false := by
    intro p hr ho
    have g_offset : Est.get ⟨⟨.cmi, .discrete⟩, data, (some dz), p⟩ "offset" PyVal.toOptInt = some o := by
      show (p "offset").bind _ = _
      rw [ho ("offset", .int 0) (by simp [optionalKw, ownKw, normalizeKw, commonKw, defaultNoise])]; exact h_offset
    have g_base : Est.get ⟨⟨.cmi, .discrete⟩, data, (some dz), p⟩ "base" PyVal.toBase = some b := by
      show (p "base").bind _ = _
      rw [ho ("base", W.b0) (by simp [optionalKw, ownKw, normalizeKw, commonKw, defaultNoise])]; exact h_base
    exact result_vec (by simp (maxSteps := 2000000) only [Est.vecVal, Est.cmiVec, Option.bind_eq_bind, Option.bind_some, g_base, g_offset, hx, hz])
  obtain ⟨p, e, e', hr, ho⟩ := im_cmi_eval W.vec data a kw dz ha hd (by simp [requiredKw]) h4
  rw [e, e', hv p hr ho]
  exact ⟨rfl, rfl⟩

theorem e2e_vmi_millerMadow {W : World} {data : List PyData} {a : PyName} {kw : Kw} {cond : CondKw PyData} (hc : cond.isVal = false) (ha : Names W.lower .mi a .millerMadow) (hd : 2 ≤ data.length) 
    (h4 : Only ["offset", "base", "seed"] kw)
    {o : Option Int} {b : Base} 
    (h_offset : (kwOr kw "offset" (.int 0)).toOptInt = some o)
    (h_base : (kwOr kw "base" (W.b0)).toBase = some b)
    {r : Except Exc ℝ}
    (hx : ∀ p : Kw, Est.get ⟨⟨.mi, .millerMadow⟩, data, none, p⟩ "base" PyVal.toBase = some b →
      Est.get ⟨⟨.mi, .millerMadow⟩, data, none, p⟩ "offset" PyVal.toOptInt = some o → Est.miVec ⟨⟨.mi, .millerMadow⟩, data, none, p⟩ = some r) :
    imMI W.vec data a cond kw = r := by
  have hv : ∀ p : Kw, (∀ r ∈ requiredKw .mi .millerMadow, p r = kw r) →
      (∀ o ∈ optionalKw W.b0 ⟨.mi, .millerMadow⟩, p o.1 = some (kwOr kw o.1 o.2)) →
      Est.result W.vec ⟨⟨.mi, .millerMadow⟩, data, none, p⟩ = r := by
    intro p hr ho
    have g_offset : Est.get ⟨⟨.mi, .millerMadow⟩, data, none, p⟩ "offset" PyVal.toOptInt = some o := by
      show (p "offset").bind _ = _
      rw [ho ("offset", .int 0) (by simp [optionalKw, ownKw, normalizeKw, commonKw, defaultNoise])]; exact h_offset
    have g_base : Est.get ⟨⟨.mi, .millerMadow⟩, data, none, p⟩ "base" PyVal.toBase = some b := by
      show (p "base").bind _ = _
      rw [ho ("base", W.b0) (by simp [optionalKw, ownKw, normalizeKw, commonKw, defaultNoise])]; exact h_base
    exact result_vec (by simp only [Est.vecVal, hx p g_base g_offset])
  obtain ⟨p, e, hr, ho⟩ := im_mi_eval W.vec data a cond kw ha hc hd (by simp [requiredKw]) h4
  rw [e, hv p hr ho]

theorem e2e_vcmi_millerMadow {W : World} {data : List PyData} {a : PyName} {kw : Kw} {dz : PyData} (ha : Names W.lower .cmi a .millerMadow) (hd : 2 ≤ data.length) 
    (h4 : Only ["offset", "base", "seed"] kw)
    {o : Option Int} {b : Base} 
    (h_offset : (kwOr kw "offset" (.int 0)).toOptInt = some o)
    (h_base : (kwOr kw "base" (W.b0)).toBase = some b)
    {xs : List (List Int)} (hx : data.mapM PyData.toInts = some xs) {z : CondArg} (hz : PyData.toCondArg dz = some z) :
    imCMI W.vec data a (.val dz) kw = discreteCMI xs (some z) o b true ∧
      imMI W.vec data a (.val dz) kw = discreteCMI xs (some z) o b true := by
  have hv : ∀ p : Kw, (∀ r ∈ requiredKw .cmi .millerMadow, p r = kw r) →
      (∀ o ∈ optionalKw W.b0 ⟨.cmi, .millerMadow⟩, p o.1 = some (kwOr kw o.1 o.2)) →
      Est.result W.vec ⟨⟨.cmi, .millerMadow⟩, data, (some dz), p⟩ = discreteCMI xs (some z) o b true := by
    intro p hr ho
    have g_offset : Est.get ⟨⟨.cmi, .millerMadow⟩, data, (some dz), p⟩ "offset" PyVal.toOptInt = some o := by
      show (p "offset").bind _ = _
      rw [ho ("offset", .int 0) (by simp [optionalKw, ownKw, normalizeKw, commonKw, defaultNoise])]; exact h_offset
    have g_base : Est.get ⟨⟨.cmi, .millerMadow⟩, data, (some dz), p⟩ "base" PyVal.toBase = some b := by
      show (p "base").bind _ = _
      rw [ho ("base", W.b0) (by simp [optionalKw, ownKw, normalizeKw, commonKw, defaultNoise])]; exact h_base
    exact result_vec (by simp (maxSteps := 2000000) only [Est.vecVal, Est.cmiVec, Option.bind_eq_bind, Option.bind_some, g_base, g_offset, hx, hz])
  obtain ⟨p, e, e', hr, ho⟩ := im_cmi_eval W.vec data a kw dz ha hd (by simp [requiredKw]) h4
  rw [e, e', hv p hr ho]
  exact ⟨rfl, rfl⟩

variable {W : World} {a : PyName} {kw : Kw} {b : Base} {cond : CondKw PyData} {l k s c : Nat}

/-- **C90** the ordinal transfer entropy accepts one-dimensional series only: a two-dimensional source or target is a TypeError. -/
theorem C90_te_ordinal (h : Call W .te .ordinal a kw b) (hc : cond.isVal = false) (hh : History kw l k s)
    (d : Nat) (st : Bool) (h1 : kw "embedding_dim" = some (.int d)) (h3 : kwOr kw "stable" (.bool false) = .bool st)
    {dx dy : PyData} {source dest : List (List ℝ)} {wx wy : Nat} (hx : RealVectors dx wx source) (hy : RealVectors dy wy dest)
    (hlen : source.length = dest.length) (h2 : dx.twoD = true ∨ dy.twoD = true) :
    imTE W.vec [dx, dy] a cond kw = .error .typeError := by
  rw [e2e_vte_ordinal hc h.name h.accepted (d := .int d) (by rw [h1]; rfl) (st := st) (by rw [h3]; rfl) hh.u hh.st hh.sh hh.dh
    hh.o h.base (realVectors_rows hx).1 (realVectors_rows hy).1 h2]
  have e : teInit source dest (some (.int 0)) none (.int s) = .ok (source, dest) := by simp [teInit, hlen]
  simp only [ordTEVec, e, bind, Except.bind, dimCheck]
  rw [if_neg (by omega)]

/-- **C90** likewise the conditional one, for a two-dimensional source, target or condition. -/
theorem C90_cte_ordinal (h : Call W .cte .ordinal a kw b) (hh : History kw l k s)
    (hcd : kwOr kw "cond_hist_len" (.int 1) = .int c)
    (d : Nat) (st : Bool) (h1 : kw "embedding_dim" = some (.int d)) (h3 : kwOr kw "stable" (.bool false) = .bool st)
    {dx dy dz : PyData} {source dest z : List (List ℝ)} {wx wy wz : Nat} (hx : RealVectors dx wx source) (hy : RealVectors dy wy dest)
    (hz : RealVectors dz wz z) (hlen : source.length = dest.length) (hlen2 : z.length = dest.length)
    (h2 : dx.twoD = true ∨ dy.twoD = true ∨ dz.twoD = true) :
    CteIs W.vec dx dy a dz kw (.error .typeError) := by
  have e := e2e_vcte_ordinal h.name h.accepted (d := .int d) (by rw [h1]; rfl) (st := st) (by rw [h3]; rfl) hh.u hh.st hh.sh hh.dh
    (condArg hcd) hh.o h.base (realVectors_rows hx).1 (realVectors_rows hy).1 (realVectors_rows hz).1 h2
  have e1 : cteInit source dest (some z) (some (.int 0)) none = .ok (source, dest, z) := by simp [cteInit, hlen, hlen2]
  have e2 : ordCTEVec dz.twoD source dest z { dim := .int d, te := { srcHist := .int l, destHist := .int k, step := .int s }, stable := st }
      (some (.int 0)) none = .error .typeError := by
    simp only [ordCTEVec, e1, bind, Except.bind, dimCheck]
    rw [if_neg (show ¬ (d : Int) < 0 by omega)]
    simp
  rw [e2] at e
  exact e

/-- **C90** the Miller–Madow conditional transfer entropy does not accept a tuple of conditions. -/
theorem C90_cte_miller_madow_tuple (h : Call W .cte .millerMadow a kw b) (hh : History kw l k s)
    (hcd : kwOr kw "cond_hist_len" (.int 1) = .int c) {dx dy : PyData} {source dest : List (List Int)} {wx wy : Nat}
    (hx : IntVectors dx wx source) (hy : IntVectors dy wy dest) (cols : List (List Int)) (hne : cols.length ≠ source.length) :
    CteIs W.vec dx dy a (.intTup cols) kw (.error .valueError) := by
  have e := e2e_vcte_millerMadow h.name h.accepted hh.u hh.st hh.sh hh.dh (condArg hcd) hh.o h.base (intVectors_rows hx).1
    (intVectors_rows hy).1 (dz := .intTup cols) (z := .tup cols) rfl
  rw [C75_mm_tuple_rejected source dest cols hne] at e
  exact e

theorem mapM_imat (arrs : List (Nat × List (List Int))) :
    (arrs.map (fun q => PyData.imat q.1 q.2)).mapM PyData.toMatRows = some (arrs.map Prod.snd) := by
  induction arrs with
  | nil => rfl
  | cons q qs ih => simp [List.mapM_cons, ih, PyData.toMatRows]

theorem mapM_ints_imat (arrs : List (Nat × List (List Int))) (h : arrs ≠ []) :
    (arrs.map (fun q => PyData.imat q.1 q.2)).mapM PyData.toInts = none := by
  cases arrs with
  | nil => exact absurd rfl h
  | cons q qs => simp [List.mapM_cons, PyData.toInts]

/-- the value of the discrete mutual informations of 2-D arrays -/
theorem mi_all2D (vars : List (List (List Int))) (N : Nat) (hN : 0 < N) (h2 : 2 ≤ vars.length) (hl : ∀ v ∈ vars, v.length = N)
    (hb : b.Valid) (mm : Bool) :
    discreteMI (.all2D vars) (some 0) b mm = .ok (((vars.map (hSpec mm)).sum - hSpec mm (rows N vars)) / b.ln) := by
  have hne : vars ≠ [] := by rintro rfl; simp at h2
  have hN' : (0 : ℝ) < N := by exact_mod_cast hN
  simp only [discreteMI, miInit_ok h2 hl, bind, Except.bind, miGlobal, miNdOther_ok vars N hN hne hl hb]
  cases mm with
  | false =>
    have e : ∀ {α : Type} [DecidableEq α] (v : List α), hSpec false v = entropy v := fun v => by simp [hSpec]
    have hs : (vars.map (hSpec false)).sum = (vars.map entropy).sum := by rw [List.map_congr_left (fun v _ => e v)]
    simp only [Bool.false_eq_true, if_false, addCorr]
    rw [hs, e, show (vars.map entropy).sum - entropy (rows N vars) = Spec.totalCorrelation N vars from rfl]
    congr!
  | true =>
    have hs : (vars.map (fun v => millerMadow v)).sum = (vars.map entropy).sum +
        (((vars.map (fun v => (npUnique v).length)).sum : ℕ) - (vars.length : ℝ)) / (2 * N) := by
      clear hne h2
      induction vars with
      | nil => simp
      | cons v vs ih =>
        have hv : v.length = N := hl v (by simp)
        simp only [List.map_cons, List.sum_cons, ih (fun w hw => hl w (by simp [hw])), List.length_cons]
        have hu : (npUnique v).length = v.toFinset.card := by rw [npUnique_length]; congr!
        rw [millerMadow, hv, hu]
        push_cast
        ring
    have e : ∀ {α : Type} [DecidableEq α] (v : List α), hSpec true v = millerMadow v := fun v => by simp [hSpec]
    have hr : (rows N vars).length = N := by simp [rows]
    have ht : Spec.totalCorrelation N vars = (vars.map entropy).sum - entropy (rows N vars) := rfl
    have hg : ((vars.map (hSpec true)).sum - hSpec true (rows N vars)) / b.ln = Spec.totalCorrelation N vars / b.ln +
        (((vars.map (fun v => (npUnique v).length)).sum : ℕ) - (vars.length : ℝ) - (rows N vars).toFinset.card + 1) / (2 * N) / b.ln := by
      rw [List.map_congr_left (fun v _ => e v), hs, e, millerMadow, hr, ht]
      ring
    rw [hg]
    simp only [if_true]
    rw [addCorr_ok (some b) (by intro b' h'; cases h'; exact hb) _ _ _ _ _ hN.ne']
    simp only [List.length_map, sub_zero]
    congr!

/-- **C90** `im.mutual_information(x, y, …)` of two-dimensional integer arrays: the total correlation of the rows (a constant variable
included). -/
theorem C90_mi (h : Call W .mi .discrete a kw b) (hb : b.Valid) (hc : cond.isVal = false) (ho : kwOr kw "offset" (.int 0) = .int 0)
    (arrs : List (Nat × List (List Int))) (N : Nat) (hN : 0 < N) (h2 : 2 ≤ arrs.length) (hl : ∀ q ∈ arrs, q.2.length = N) :
    imMI W.vec (arrs.map (fun q => .imat q.1 q.2)) a cond kw = .ok (Spec.totalCorrelation N (arrs.map Prod.snd) / b.ln) := by
  have hne : arrs ≠ [] := by rintro rfl; simp at h2
  rw [e2e_vmi_discrete (r := discreteMI (.all2D (arrs.map Prod.snd)) (some 0) b false) hc h.name (by simpa using h2) h.accepted (o := some 0)
    (by rw [ho]; rfl) h.base (fun p g1 g2 => by
      simp (maxSteps := 2000000) only [Est.miVec, Option.bind_eq_bind, Option.bind_some, g1, g2, mapM_ints_imat arrs hne, mapM_imat]),
    mi_all2D _ N hN (by simpa using h2) (by intro v hv; obtain ⟨q, hq, rfl⟩ := List.mem_map.1 hv; exact hl q hq) hb]
  have e : ∀ {α : Type} [DecidableEq α] (v : List α), hSpec false v = entropy v := fun v => by simp [hSpec]
  rw [Spec.totalCorrelation, e, List.map_congr_left (fun v _ => e v)]

/-- **C90** two variables. -/
theorem C90_mi_two (h : Call W .mi .discrete a kw b) (hb : b.Valid) (hc : cond.isVal = false) (ho : kwOr kw "offset" (.int 0) = .int 0)
    (m n : Nat) (xs ys : List (List Int)) (hx : xs ≠ []) (hl : xs.length = ys.length) :
    imMI W.vec [.imat m xs, .imat n ys] a cond kw = .ok (Spec.mi xs ys / b.ln) := by
  have e : Spec.totalCorrelation xs.length [xs, ys] = Spec.mi xs ys := by convert tc_pair xs ys hl
  rw [← e]
  exact C90_mi h hb hc ho [(m, xs), (n, ys)] xs.length (List.length_pos_iff.2 hx) (by simp) (by simp [hl])

/-- **C90** Miller–Madow. -/
theorem C90_mi_miller_madow (h : Call W .mi .millerMadow a kw b) (hb : b.Valid) (hc : cond.isVal = false)
    (ho : kwOr kw "offset" (.int 0) = .int 0) (arrs : List (Nat × List (List Int))) (N : Nat) (hN : 0 < N) (h2 : 2 ≤ arrs.length)
    (hl : ∀ q ∈ arrs, q.2.length = N) :
    imMI W.vec (arrs.map (fun q => .imat q.1 q.2)) a cond kw =
      .ok (((arrs.map (fun q => millerMadow q.2)).sum - millerMadow (rows N (arrs.map Prod.snd))) / b.ln) := by
  have hne : arrs ≠ [] := by rintro rfl; simp at h2
  rw [e2e_vmi_millerMadow (r := discreteMI (.all2D (arrs.map Prod.snd)) (some 0) b true) hc h.name (by simpa using h2) h.accepted (o := some 0)
    (by rw [ho]; rfl) h.base (fun p g1 g2 => by
      simp (maxSteps := 2000000) only [Est.miVec, Option.bind_eq_bind, Option.bind_some, g1, g2, mapM_ints_imat arrs hne, mapM_imat]),
    mi_all2D _ N hN (by simpa using h2) (by intro v hv; obtain ⟨q, hq, rfl⟩ := List.mem_map.1 hv; exact hl q hq) hb]
  have e : ∀ {α : Type} [DecidableEq α] (v : List α), hSpec true v = millerMadow v := fun v => by simp [hSpec]
  rw [e, List.map_congr_left (fun v _ => e v), List.map_map]
  rfl

/-- **C90** arrays of different dimensions are a TypeError. -/
theorem C90_mi_mixed (mm : Bool) (h : Call W .mi (if mm then .millerMadow else .discrete) a kw b) (hc : cond.isVal = false)
    (ho : kwOr kw "offset" (.int 0) = .int 0) (m : Nat) (xs : List Int) (ys : List (List Int)) (hx : xs ≠ []) (hl : xs.length = ys.length) :
    imMI W.vec [.ints xs, .imat m ys] a cond kw = .error .typeError ∧ imMI W.vec [.imat m ys, .ints xs] a cond kw = .error .typeError := by
  have hy : ys.length ≠ 0 := by rw [← hl]; simpa using hx
  have hx' : xs.length ≠ 0 := by simpa using hx
  cases mm with
  | false =>
    refine ⟨e2e_vmi_discrete hc h.name (by simp) h.accepted (o := some 0) (by rw [ho]; rfl) h.base (fun p g1 g2 => ?_),
      e2e_vmi_discrete hc h.name (by simp) h.accepted (o := some 0) (by rw [ho]; rfl) h.base (fun p g1 g2 => ?_)⟩
    all_goals
      simp (maxSteps := 2000000) only [Est.miVec, Option.bind_eq_bind, Option.bind_some, g1, g2]
      simp [List.mapM_cons, PyData.toInts, PyData.toMatRows, PyData.toIntRows, miInit, hl, bind, Except.bind, discreteMI, miGlobal, hy, ← List.length_eq_zero_iff]
  | true =>
    refine ⟨e2e_vmi_millerMadow hc h.name (by simp) h.accepted (o := some 0) (by rw [ho]; rfl) h.base (fun p g1 g2 => ?_),
      e2e_vmi_millerMadow hc h.name (by simp) h.accepted (o := some 0) (by rw [ho]; rfl) h.base (fun p g1 g2 => ?_)⟩
    all_goals
      simp (maxSteps := 2000000) only [Est.miVec, Option.bind_eq_bind, Option.bind_some, g1, g2]
      simp [List.mapM_cons, PyData.toInts, PyData.toMatRows, PyData.toIntRows, miInit, hl, bind, Except.bind, discreteMI, miGlobal, hy, ← List.length_eq_zero_iff]

/-- **C90** `im.conditional_mutual_information(x, y, cond=z)` of integer series, the condition an array of vectors or a tuple of series taken
together: `I(X; Y | Z)`. -/
theorem C90_cmi (h : Call W .cmi .discrete a kw b) (hb : b.Valid) (ho : kwOr kw "offset" (.int 0) = .int 0)
    (xs ys : List Int) {dz : PyData} {z : List (List Int)} (hz : Condition dz z) (h1 : xs.length = ys.length) (h2 : xs.length = z.length)
    (hx : xs ≠ []) (hov : xs.length < 2 ^ 32) :
    CmiIs W.vec [.ints xs, .ints ys] a dz kw (.ok (Spec.cmi xs ys z / b.ln)) := by
  have key : ∀ cz : CondArg, dz.toCondArg = some cz → (∃ z0, condReduce false cz = .ok z0 ∧ z0.length = xs.length) →
      discreteCMI [xs, ys] (some cz) none b = .ok (Spec.cmi xs ys z / b.ln) →
      CmiIs W.vec [.ints xs, .ints ys] a dz kw (.ok (Spec.cmi xs ys z / b.ln)) := by
    rintro cz ez ⟨z0, e0, l0⟩ ev
    have e := e2e_vcmi_discrete h.name (by simp) h.accepted (o := some 0) (by rw [ho]; rfl) h.base (mapM_ints [xs, ys]) ez
    have e1 : discreteCMI [xs, ys] (some cz) (some 0) b false = discreteCMI [xs, ys] (some cz) none b false := by
      rw [discreteCMI_eq (z := z0) (by simp) (by simp [← h1, l0]) e0 (Or.inl rfl),
        discreteCMI_eq (z := z0) (by simp) (by simp [← h1, l0]) e0 (Or.inr rfl)]
    rw [e1, ev] at e
    exact e
  cases hz with
  | array hz =>
    cases hz with
    | one zs =>
      have hzl : xs.length = zs.length := by simpa using h2
      refine key _ rfl ⟨zs, rfl, hzl.symm⟩ ?_
      rw [C16_cmi_is_textbook xs ys zs h1 (h1 ▸ hzl) hx hov b hb, cmi_cond_congr xs ys zs (fun x => [x]) (by simp) h1 (h1 ▸ hzl)]
    | two w zs hw hr =>
      refine key _ rfl ⟨_, rfl, by simp [h2]⟩ (C16_cmi_array_condition xs ys z h1 h2 hx hov b hb)
  | tuple N cols hne hl =>
    have hN : N = xs.length := by simpa [rows] using h2.symm
    subst hN
    refine key _ rfl ⟨(npInverse (rows xs.length cols)).map Int.ofNat, ?_, by simp [rows]⟩
      (C16_cmi_joint_condition xs ys cols h1 hne hl hx hov b hb)
    simp only [condReduce, reduceJointSpace, columnStack_ok hne hl]; rfl

/-- **C90** the Miller–Madow conditional mutual information accepts one-dimensional conditions only. -/
theorem C90_cmi_miller_madow_joint (h : Call W .cmi .millerMadow a kw b) (ho : kwOr kw "offset" (.int 0) = .int 0)
    (vars : List (List Int)) (h2 : 2 ≤ vars.length) (dz : PyData) (hz : (∃ cols, dz = .intTup cols) ∨ ∃ w rows, dz = .imat w rows) :
    CmiIs W.vec (vars.map .ints) a dz kw (.error .valueError) := by
  have key : ∀ cz : CondArg, dz.toCondArg = some cz → condReduce true cz = .error .valueError →
      CmiIs W.vec (vars.map .ints) a dz kw (.error .valueError) := by
    intro cz ez e0
    have e := e2e_vcmi_millerMadow h.name (by simpa using h2) h.accepted (o := some 0) (by rw [ho]; rfl) h.base (mapM_ints vars) ez
    have e1 : discreteCMI vars (some cz) (some 0) b true = .error .valueError := by
      simp only [discreteCMI, e0, Except.map, bind, Except.bind]
    rw [e1] at e
    exact e
  rcases hz with ⟨cols, rfl⟩ | ⟨w, rows, rfl⟩
  · exact key _ rfl rfl
  · exact key _ rfl rfl

end Verif
