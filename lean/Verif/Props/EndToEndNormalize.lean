import Verif.Props.EndToEndSymbols2
import Verif.Props.Normalize

/-!
# C93: `normalize=True` in the bias-corrected mutual information changes nothing
-/

namespace Verif

open Spec

variable {W : World} {a : PyName} {kw : Kw} {b : Base} {cond : CondKw PyData} {N : Nat} {cols : List (List Int)} {z : List Int}
  {data : List PyData} {dz : PyData} {f : Fam}

/-- the same keyword arguments with `normalize=False` -/
def Kw.unnormalized (kw : Kw) : Kw := fun k => if k = "normalize" then some (.bool false) else kw k

/-- the sequence takes at least two values -/
def Varies (v : List Int) : Prop := ∃ x ∈ v, ∃ y ∈ v, x ≠ y

/-- the estimators of discrete data whose mutual information has a `normalize` parameter -/
def nrmFam : Fam → Bool
  | .grassberger | .chaoShen | .chaoWangJost | .shrink | .zhang | .bonachela | .bayes | .ansb | .nsb => true
  | _ => false

theorem nrm_series {v : List Int} {w : List ℝ} {f : Int → ℝ} (hf : ∀ x ∈ v, ∀ y ∈ v, f x = f y → x = y) (e : w = v.map f) (hv : Varies v) :
    ∃ w', normalize01 w = .ok w' ∧ Symbols v (.reals w') := by
  obtain ⟨x, hx, y, hy, hne⟩ := hv
  subst e
  obtain ⟨lo, hi, hr⟩ : ∃ lo hi, Range (v.map f) lo hi := by
    cases h : v.map f with
    | nil => simp at h; simp [h] at hx
    | cons x r => exact ⟨_, _, range_cons x r⟩
  have hlt : lo ≠ hi := by
    rintro rfl
    have h1 := hr.lower _ (List.mem_map_of_mem (f := f) hx)
    have h2 := hr.upper _ (List.mem_map_of_mem (f := f) hx)
    have h3 := hr.lower _ (List.mem_map_of_mem (f := f) hy)
    have h4 := hr.upper _ (List.mem_map_of_mem (f := f) hy)
    exact hne (hf x hx y hy (by linarith))
  refine ⟨_, normalize01_ok hr hlt, fun i => (f i - lo) / (hi - lo), ?_, ?_⟩
  · intro i hi' j hj h
    refine hf i hi' j hj ?_
    have : hi - lo ≠ 0 := sub_ne_zero.2 (Ne.symm hlt)
    field_simp at h
    linarith
  · simp [PyData.toSeries, Function.comp_def]

theorem nrm_all (hs : List.Forall₂ Symbols cols data) (hv : ∀ c ∈ cols, Varies c) :
    ∃ ws ws' : List (List ℝ), data.mapM PyData.toSeries = some ws ∧ ws.mapM normalize01 = .ok ws' ∧
      List.Forall₂ Symbols cols (ws'.map .reals) ∧ List.Forall₂ (fun (c : List Int) (w : List ℝ) => w.length = c.length) cols ws := by
  induction hs with
  | nil => exact ⟨[], [], rfl, rfl, .nil, .nil⟩
  | @cons c d cols data h hs ih =>
    obtain ⟨ws, ws', e1, e2, e3, e4⟩ := ih (fun c hc => hv c (List.mem_cons_of_mem _ hc))
    obtain ⟨g, hg, e⟩ := h
    obtain ⟨w', n1, n2⟩ := nrm_series hg rfl (hv c (List.mem_cons_self ..))
    refine ⟨c.map g :: ws, w' :: ws', ?_, ?_, .cons n2 e3, .cons (by simp) e4⟩
    · rw [List.mapM_cons, e, e1]; rfl
    · rw [List.mapM_cons, n1, e2]; rfl

theorem nrm_lens {ws : List (List ℝ)} (h : List.Forall₂ (fun (c : List Int) (w : List ℝ) => w.length = c.length) cols ws)
    (hl : ∀ c ∈ cols, c.length = N) : ∀ w ∈ ws, w.length = N := by
  induction h with
  | nil => simp
  | cons e _ ih =>
    intro w hw
    rcases List.mem_cons.1 hw with rfl | hw
    · rw [e, hl _ (List.mem_cons_self ..)]
    · exact ih (fun c hc => hl c (List.mem_cons_of_mem _ hc)) w hw

/-- the parameters of the estimators concerned, as read -/
structure NrmPar (f : Fam) (p : Kw) (b : Base) : Prop where
  base : (p "base").bind PyVal.toBase = some b
  offset : p "offset" = some (.int 0)
  normalize : p "normalize" = some (.bool false)
  alpha : f = .bayes → ∃ x, (p "alpha").bind PyVal.toAlpha = some x
  K : f = .bayes ∨ f = .nsb → ∃ x, (p "K").bind PyVal.toOptArg = some x
  under : f = .ansb → ∃ x, (p "undersampled").bind PyVal.toNum = some x

/-- two sets of parameters that agree on what the estimator reads -/
structure NrmEq (f : Fam) (p q : Kw) : Prop where
  base : p "base" = q "base"
  offset : p "offset" = q "offset"
  normalize : p "normalize" = q "normalize"
  alpha : f = .bayes → p "alpha" = q "alpha"
  K : f = .bayes ∨ f = .nsb → p "K" = q "K"
  under : f = .ansb → p "undersampled" = q "undersampled"

theorem nrm_ints (cols : List (List Int)) : (cols.map PyData.ints).mapM PyData.toInts = some cols := by
  induction cols with
  | nil => rfl
  | cons c l ih => rw [List.map_cons, List.mapM_cons, ih]; rfl

theorem nrm_ints' (cols : List (List Int)) : cols.mapM (PyData.toInts ∘ PyData.ints) = some cols := by
  rw [← List.mapM_map, nrm_ints]

theorem nrm_mi (hf : nrmFam f = true) {p q : Kw} (hp : NrmPar f p b) (he : NrmEq f p q) :
    Est.result W ⟨⟨.mi, f⟩, cols.map .ints, none, p⟩ = Est.result W ⟨⟨.mi, f⟩, cols.map .ints, none, q⟩ := by
  have h2 := hp.base
  have h3 := hp.offset
  have h4 := hp.normalize
  have e1 := he.base ▸ h2
  have e2 := he.offset ▸ h3
  have e3 := he.normalize ▸ h4
  cases f <;> simp [nrmFam] at hf
  case bayes =>
    obtain ⟨x, hx⟩ := hp.alpha rfl
    obtain ⟨k, hk⟩ := hp.K (.inl rfl)
    have hx' := he.alpha rfl ▸ hx
    have hk' := he.K (.inl rfl) ▸ hk
    simp [Est.result, Est.mi, Est.get, Est.bclass, h2, h3, h4, e1, e2, e3, nrm_ints', hx, hk, hx', hk', PyVal.toBool, PyVal.toOptInt]
  case nsb =>
    obtain ⟨k, hk⟩ := hp.K (.inr rfl)
    have hk' := he.K (.inr rfl) ▸ hk
    simp [Est.result, Est.mi, Est.get, Est.bclass, h2, h3, h4, e1, e2, e3, nrm_ints', hk, hk', PyVal.toBool, PyVal.toOptInt]
  case ansb =>
    obtain ⟨k, hk⟩ := hp.under rfl
    have hk' := he.under rfl ▸ hk
    simp [Est.result, Est.mi, Est.get, Est.bclass, h2, h3, h4, e1, e2, e3, nrm_ints', hk, hk', PyVal.toBool, PyVal.toOptInt]
  all_goals simp [Est.result, Est.mi, Est.get, Est.bclass, h2, h3, h4, e1, e2, e3, nrm_ints', PyVal.toBool, PyVal.toOptInt]

theorem nrm_cmi (hf : nrmFam f = true) {p q : Kw} (hp : NrmPar f p b) (he : NrmEq f p q) :
    Est.result W ⟨⟨.cmi, f⟩, cols.map .ints, some (.ints z), p⟩ = Est.result W ⟨⟨.cmi, f⟩, cols.map .ints, some (.ints z), q⟩ := by
  have h2 := hp.base
  have h3 := hp.offset
  have h4 := hp.normalize
  have e1 := he.base ▸ h2
  have e2 := he.offset ▸ h3
  have e3 := he.normalize ▸ h4
  cases f <;> simp [nrmFam] at hf
  case bayes =>
    obtain ⟨x, hx⟩ := hp.alpha rfl
    obtain ⟨k, hk⟩ := hp.K (.inl rfl)
    have hx' := he.alpha rfl ▸ hx
    have hk' := he.K (.inl rfl) ▸ hk
    simp [Est.result, Est.cmi, Est.get, Est.bclass, h2, h3, h4, e1, e2, e3, nrm_ints', hx, hk, hx', hk', PyVal.toBool, PyVal.toOptInt, PyData.toInts]
  case nsb =>
    obtain ⟨k, hk⟩ := hp.K (.inr rfl)
    have hk' := he.K (.inr rfl) ▸ hk
    simp [Est.result, Est.cmi, Est.get, Est.bclass, h2, h3, h4, e1, e2, e3, nrm_ints', hk, hk', PyVal.toBool, PyVal.toOptInt, PyData.toInts]
  case ansb =>
    obtain ⟨k, hk⟩ := hp.under rfl
    have hk' := he.under rfl ▸ hk
    simp [Est.result, Est.cmi, Est.get, Est.bclass, h2, h3, h4, e1, e2, e3, nrm_ints', hk, hk', PyVal.toBool, PyVal.toOptInt, PyData.toInts]
  all_goals simp [Est.result, Est.cmi, Est.get, Est.bclass, h2, h3, h4, e1, e2, e3, nrm_ints', PyVal.toBool, PyVal.toOptInt, PyData.toInts]

/-- the keyword arguments of the estimators concerned -/
structure NrmKw (f : Fam) (kw : Kw) : Prop where
  offset : kwOr kw "offset" (.int 0) = .int 0
  normalize : kwOr kw "normalize" (.bool false) = .bool true
  alpha : f = .bayes → ∃ x, (kw "alpha").bind PyVal.toAlpha = some x
  K : f = .bayes ∨ f = .nsb → ∃ x, (kwOr kw "K" .none).toOptArg = some x
  under : f = .ansb → ∃ x, (kwOr kw "undersampled" (.num (1 / 10))).toNum = some x

/-- the parameters the constructor gets from the keyword arguments -/
def CtorGot (W : World) (cls : EstClass) (kw p : Kw) : Prop :=
  (∀ r ∈ requiredKw cls.kind cls.fam, p r = kw r) ∧ ∀ o ∈ optionalKw W.b0 cls, p o.1 = some (kwOr kw o.1 o.2)

theorem nrm_accepted {k : Kind} (hf : nrmFam f = true) (hk : k = .mi ∨ k = .cmi) (h : Only (acceptedKw W.b0 ⟨k, f⟩) kw) :
    Only (acceptedKw W.b0 ⟨k, f⟩) kw.unnormalized := by
  intro s hs
  by_cases e : s = "normalize"
  · subst e
    rcases hk with rfl | rfl <;> cases f <;> simp [nrmFam] at hf <;> simp [acceptedKw, optionalKw, ownKw, normalizeKw, commonKw]
  · exact h s (by simpa [Kw.unnormalized, e] using hs)

theorem nrm_got {k : Kind} (hk : k = .mi ∨ k = .cmi) (hf : nrmFam f = true) (h : Call W k f a kw b) (hw : NrmKw f kw) {p q : Kw}
    (hp : CtorGot W ⟨k, f⟩ kw p) (hq : CtorGot W ⟨k, f⟩ kw.unnormalized q) :
    p "normalize" = some (.bool true) ∧ p "offset" = some (.int 0) ∧ NrmPar f p.prepared b ∧ NrmEq f p.prepared q := by
  have hb := h.base
  have P := hp.2
  have Q := hq.2
  have u : ∀ s d, s ≠ "normalize" → kwOr kw.unnormalized s d = kwOr kw s d := fun s d hs => by simp [kwOr, Kw.unnormalized, hs]
  have un : kwOr kw.unnormalized "normalize" (.bool false) = .bool false := by simp [kwOr, Kw.unnormalized]
  have m : ∀ s d, s ≠ "normalize" → (s, d) ∈ optionalKw W.b0 ⟨k, f⟩ → p s = some (kwOr kw s d) ∧ q s = some (kwOr kw s d) := by
    intro s d hs hm
    exact ⟨P _ hm, by rw [Q _ hm, u s d hs]⟩
  have o1 : ("normalize", PyVal.bool false) ∈ optionalKw W.b0 ⟨k, f⟩ := by
    rcases hk with rfl | rfl <;> cases f <;> simp [nrmFam] at hf <;> simp [optionalKw, ownKw, normalizeKw, commonKw]
  have o2 : ("base", W.b0) ∈ optionalKw W.b0 ⟨k, f⟩ := by
    rcases hk with rfl | rfl <;> cases f <;> simp [nrmFam] at hf <;> simp [optionalKw, ownKw, normalizeKw, commonKw]
  have n1 := P _ o1
  have n2 := Q _ o1
  have b1 := m _ _ (by decide) o2
  simp only [un] at n2
  simp only [hw.normalize] at n1
  have o3 : ∃ d, ("offset", d) ∈ optionalKw W.b0 ⟨k, f⟩ ∧ (d = .int 0) := by
    rcases hk with rfl | rfl <;> cases f <;> simp [nrmFam] at hf <;> simp [optionalKw, ownKw, normalizeKw, commonKw]
  obtain ⟨d, o3, rfl⟩ := o3
  have f1 := m _ _ (by decide) o3
  rw [hw.offset] at f1
  refine ⟨n1, f1.1, ⟨by simp [Kw.prepared, b1.1, hb], rfl, rfl, ?_, ?_, ?_⟩, ⟨by simp [Kw.prepared, b1.1, b1.2], by simp [Kw.prepared, f1.2], by simp [Kw.prepared, n2], ?_, ?_, ?_⟩⟩
  · rintro rfl
    have := hp.1 "alpha" (by simp [requiredKw])
    simpa [Kw.prepared, this] using hw.alpha rfl
  · intro hh
    have oK : ("K", PyVal.none) ∈ optionalKw W.b0 ⟨k, f⟩ := by
      rcases hk with rfl | rfl <;> rcases hh with rfl | rfl <;> simp [optionalKw, ownKw]
    simpa [Kw.prepared, (m _ _ (by decide) oK).1] using hw.K hh
  · rintro rfl
    have oK : ("undersampled", PyVal.num (1 / 10)) ∈ optionalKw W.b0 ⟨k, .ansb⟩ := by
      rcases hk with rfl | rfl <;> simp [optionalKw, ownKw]
    simpa [Kw.prepared, (m _ _ (by decide) oK).1] using hw.under rfl
  · rintro rfl
    have h1 := hp.1 "alpha" (by simp [requiredKw])
    have h2 := hq.1 "alpha" (by simp [requiredKw])
    simp [Kw.prepared, h1, h2, Kw.unnormalized]
  · intro hh
    have oK : ("K", PyVal.none) ∈ optionalKw W.b0 ⟨k, f⟩ := by
      rcases hk with rfl | rfl <;> rcases hh with rfl | rfl <;> simp [optionalKw, ownKw]
    simp [Kw.prepared, m _ _ (by decide) oK]
  · rintro rfl
    have oK : ("undersampled", PyVal.num (1 / 10)) ∈ optionalKw W.b0 ⟨k, .ansb⟩ := by
      rcases hk with rfl | rfl <;> simp [optionalKw, ownKw]
    simp [Kw.prepared, m _ _ (by decide) oK]

theorem nrm_eval_mi (hf : nrmFam f = true) (h : Call W .mi f a kw b) (hw : NrmKw f kw) (hc : cond.isVal = false)
    (hs : List.Forall₂ Symbols cols data) (hv : ∀ c ∈ cols, Varies c) (h2 : 2 ≤ cols.length) (hl : ∀ c ∈ cols, c.length = N) :
    ∃ cols', List.Forall₂ Relabelled cols cols' ∧ imMI W.symbols data a cond kw = imMI W (cols'.map .ints) a cond kw.unnormalized := by
  obtain ⟨ws, ws', e1, e2, e3, e4⟩ := nrm_all hs hv
  obtain ⟨cols', r, er⟩ := symb_recoded (cls := ⟨.mi, f⟩) e3
  have l1 : cols'.length = cols.length := r.length_eq.symm
  have l2 : data.length = cols.length := hs.length_eq.symm
  refine ⟨cols', r, ?_⟩
  have hsy : f.isSymbolic = true := by cases f <;> simp [nrmFam] at hf <;> rfl
  have ha : f = .bayes → kw "alpha" ≠ none := fun e h0 => by
    obtain ⟨x, hx⟩ := hw.alpha e
    simp [h0] at hx
  have req := symb_required (kw := kw) (k := .mi) hsy ha
  obtain ⟨p, hp, hr, ho⟩ := symb_built W { cls := ⟨.mi, f⟩, data := data, cond := cond, kw := kw } trivial (okFor_none (.inl rfl) hc) req h.accepted
  obtain ⟨q, hq, hr', ho'⟩ := symb_built W { cls := ⟨.mi, f⟩, data := cols'.map .ints, cond := cond, kw := kw.unnormalized } trivial
    (okFor_none (.inl rfl) hc) (symb_required hsy fun e => by simpa [Kw.unnormalized] using ha e) (nrm_accepted hf (.inl rfl) h.accepted)
  obtain ⟨g1, g2, g3, g4⟩ := nrm_got (.inl rfl) hf h hw ⟨hr, ho⟩ ⟨hr', ho'⟩
  have hg := C46_mi_guard W.symbols.lower data a cond kw
  have hg' := C46_mi_guard W.lower (cols'.map PyData.ints) a cond kw.unnormalized
  simp only [hc, Bool.false_eq_true, if_false] at hg hg'
  rw [imMI, imMI, guarded_ok hg ⟨h.name.resolves, l2 ▸ h2⟩ h.name,
    guarded_ok hg' ⟨h.name.resolves, by rw [List.length_map, l1]; exact h2⟩ h.name]
  have : cond.toOption = none := by cases cond <;> simp_all [CondKw.toOption, CondKw.isVal]
  simp only [runCall, bind, Except.bind, (symb_build hp).2, (symb_build hq).1, this]
  rw [← nrm_mi hf g3 g4]
  have lw := nrm_lens e4 hl
  have hinit : miInit ws (some 0) = .ok ws := by
    have lws : ws.length = cols.length := e4.length_eq.symm
    have : ws.all (fun v => decide (v.length = (ws.headD []).length)) = true := by
      rw [List.all_eq_true]
      intro v hv
      cases ws with
      | nil => simp at hv
      | cons w l => simp [lw v hv, lw w (List.mem_cons_self ..)]
    rw [miInit, if_neg (by omega), if_neg (by simp), if_neg (by rw [this]; simp)]
    simp
  have hsv : Est.symVal W ⟨⟨.mi, f⟩, data, none, p⟩ = some (Est.result W ⟨⟨.mi, f⟩, cols'.map .ints, none, p.prepared⟩) := by
    have hnz : Est.normalizes ⟨⟨.mi, f⟩, data, none, p⟩ = true := by
      cases f <;> simp [nrmFam] at hf <;> simp [Est.normalizes, Est.get, g1, PyVal.toBool]
    simp [Est.symVal, hsy, hnz, Est.normalized, Est.get, g2, PyVal.toOptInt, e1, hinit, e2, er, Except.bind]
  have hno : Est.mi W.symbols ⟨⟨.mi, f⟩, data, none, p⟩ = none := by
    unfold Est.mi
    cases f <;> simp [nrmFam] at hf <;> simp [Est.get, g1, PyVal.toBool]
  conv_lhs => unfold Est.result
  simp only [hno, Option.getD_none]
  simp [World.symbols, hsv]

theorem nrm_eval_cmi (hf : nrmFam f = true) (h : Call W .cmi f a kw b) (hw : NrmKw f kw)
    (hs : List.Forall₂ Symbols cols data) (hz : Symbols z dz) (hv : ∀ c ∈ z :: cols, Varies c) (h2 : 2 ≤ cols.length)
    (hl : ∀ c ∈ cols, c.length = z.length) :
    ∃ cols' z', List.Forall₂ Relabelled cols cols' ∧ Relabelled z z' ∧
      imCMI W.symbols data a (.val dz) kw = imCMI W (cols'.map .ints) a (.val (.ints z')) kw.unnormalized ∧
      imMI W.symbols data a (.val dz) kw = imMI W (cols'.map .ints) a (.val (.ints z')) kw.unnormalized := by
  obtain ⟨ws, ws', e1, e2, e3, e4⟩ := nrm_all hs (fun c hc => hv c (List.mem_cons_of_mem _ hc))
  obtain ⟨gz, hgz, ez⟩ := hz
  obtain ⟨wz, n1, n2⟩ := nrm_series hgz rfl (hv z (List.mem_cons_self ..))
  obtain ⟨cols', z', r, rz, er⟩ := symb_recoded_cond (cls := ⟨.cmi, f⟩) e3 n2
  have l1 : cols'.length = cols.length := r.length_eq.symm
  have l2 : data.length = cols.length := hs.length_eq.symm
  refine ⟨cols', z', r, rz, ?_⟩
  have hsy : f.isSymbolic = true := by cases f <;> simp [nrmFam] at hf <;> rfl
  have ha : f = .bayes → kw "alpha" ≠ none := fun e h0 => by
    obtain ⟨x, hx⟩ := hw.alpha e
    simp [h0] at hx
  have req := symb_required (kw := kw) (k := .cmi) hsy ha
  obtain ⟨p, hp, hr, ho⟩ := symb_built W { cls := ⟨.cmi, f⟩, data := data, cond := .val dz, kw := kw } trivial trivial req h.accepted
  obtain ⟨q, hq, hr', ho'⟩ := symb_built W { cls := ⟨.cmi, f⟩, data := cols'.map .ints, cond := .val (.ints z'), kw := kw.unnormalized } trivial
    trivial (symb_required hsy fun e => by simpa [Kw.unnormalized] using ha e) (nrm_accepted hf (.inr rfl) h.accepted)
  obtain ⟨g1, g2, g3, g4⟩ := nrm_got (.inr rfl) hf h hw ⟨hr, ho⟩ ⟨hr', ho'⟩
  have lw := nrm_lens e4 hl
  have hinit : cmiInit ws (some (z.map gz)) (some 0) = .ok (ws, z.map gz) := by
    have lws : ws.length = cols.length := e4.length_eq.symm
    match ws, lw, lws with
    | [], _, lws => simp at lws; omega
    | [_], _, lws => simp at lws; omega
    | x :: y :: rest, lw, _ =>
      have hx := lw x (by simp)
      have hy := lw y (by simp)
      have : rest.all (fun v => decide (v.length = (z.map gz).length)) = true := by
        rw [List.all_eq_true]
        intro v hv
        simp [lw v (by simp [hv])]
      simp only [cmiInit]
      rw [if_neg (by simp), if_neg (by simp [hx, hy]), if_neg (by rw [this]; simp)]
  have hsv : Est.symVal W ⟨⟨.cmi, f⟩, data, some dz, p⟩ =
      some (Est.result W ⟨⟨.cmi, f⟩, cols'.map .ints, some (.ints z'), p.prepared⟩) := by
    have hnz : Est.normalizes ⟨⟨.cmi, f⟩, data, some dz, p⟩ = true := by
      cases f <;> simp [nrmFam] at hf <;> simp [Est.normalizes, Est.get, g1, PyVal.toBool]
    simp [Est.symVal, hsy, hnz, Est.normalized, Est.get, g2, PyVal.toOptInt, e1, ez, hinit, e2, n1, er, Except.bind, bind, pure, Except.pure]
  have hno : Est.cmi W.symbols ⟨⟨.cmi, f⟩, data, some dz, p⟩ = none := by
    unfold Est.cmi
    cases f <;> simp [nrmFam] at hf <;> simp [Est.get, g1, PyVal.toBool]
  have key : Est.result W.symbols ⟨⟨.cmi, f⟩, data, some dz, p⟩ = Est.result W ⟨⟨.cmi, f⟩, cols'.map .ints, some (.ints z'), q⟩ := by
    rw [← nrm_cmi hf g3 g4]
    conv_lhs => unfold Est.result
    simp only [hno, Option.getD_none]
    simp [World.symbols, hsv]
  have d2 : 2 ≤ data.length := l2 ▸ h2
  have d2' : 2 ≤ (cols'.map PyData.ints).length := by rw [List.length_map, l1]; exact h2
  constructor
  · rw [imCMI, imCMI, guarded_ok (C46_cmi_guard W.lower (cols'.map PyData.ints) a (.val (.ints z')) kw.unnormalized) ⟨rfl, h.name.resolves, d2'⟩ h.name,
      guarded_ok (C46_cmi_guard W.symbols.lower data a (.val dz) kw) ⟨rfl, h.name.resolves, d2⟩ h.name]
    simp only [runCall, bind, Except.bind, (symb_build hp).2, (symb_build hq).1]
    exact key
  · have hg := C46_mi_guard W.lower (cols'.map PyData.ints) a (.val (.ints z')) kw.unnormalized
    have hg' := C46_mi_guard W.symbols.lower data a (.val dz) kw
    simp only [CondKw.isVal, if_true] at hg hg'
    rw [imMI, imMI, guarded_ok hg ⟨h.name.resolves, d2'⟩ h.name, guarded_ok hg' ⟨h.name.resolves, d2⟩ h.name]
    simp only [runCall, bind, Except.bind, (symb_build hp).2, (symb_build hq).1]
    exact key

theorem Call.unnormalized {k : Kind} (hk : k = .mi ∨ k = .cmi) (hf : nrmFam f = true) (h : Call W k f a kw b) : Call W k f a kw.unnormalized b :=
  ⟨h.name, nrm_accepted hf hk h.accepted, h.base⟩

theorem nrm_plain (h : kwOr kw "offset" (.int 0) = .int 0) : Plain kw.unnormalized := ⟨h, rfl⟩

/-! ## Mutual information -/

/-- **C93** `normalize=True` is without effect (variables that take at least two values, given as integers or as floats): the value is that of
the call without it.  Grassberger, Chao–Shen, Chao–Wang–Jost, shrinkage, Zhang and Bonachela. -/
theorem C93_mi_normalize_bias {m : Method} (hf : FamMethod f m) (h : Call W .mi f a kw b) (hb : b.Valid) (hc : cond.isVal = false)
    (hn : kwOr kw "normalize" (.bool false) = .bool true) (ho : kwOr kw "offset" (.int 0) = .int 0) (hs : List.Forall₂ Symbols cols data)
    (hv : ∀ c ∈ cols, Varies c) (hN : 0 < N) (h2 : 2 ≤ cols.length) (hl : ∀ c ∈ cols, c.length = N) :
    imMI W.symbols data a cond kw = imMI W (cols.map .ints) a cond kw.unnormalized := by
  have hn' : nrmFam f = true := by cases hf <;> rfl
  obtain ⟨cols', r, e⟩ := nrm_eval_mi hn' h ⟨ho, hn, by (rintro rfl; cases hf), by (rintro (rfl | rfl) <;> cases hf), by (rintro rfl; cases hf)⟩ hc hs hv h2 hl
  rw [e, C92_mi_bias hf (h.unnormalized (.inl rfl) hn') hb hc (nrm_plain ho) (.rename r) hN h2 hl]

/-- **C93** the Bayesian estimator. -/
theorem C93_mi_normalize_bayes (al : AlphaArg) (K : Option PyArg) {m : Method} (hm : (BiasClass.bayes al K).Means m)
    (h : Call W .mi .bayes a kw b) (hb : b.Valid) (hc : cond.isVal = false)
    (hn : kwOr kw "normalize" (.bool false) = .bool true) (ho : kwOr kw "offset" (.int 0) = .int 0)
    (h1 : (kw "alpha").bind PyVal.toAlpha = some al) (h3 : (kwOr kw "K" .none).toOptArg = some K) (hs : List.Forall₂ Symbols cols data)
    (hv : ∀ c ∈ cols, Varies c) (hN : 0 < N) (h2 : 2 ≤ cols.length) (hl : ∀ c ∈ cols, c.length = N) :
    imMI W.symbols data a cond kw = imMI W (cols.map .ints) a cond kw.unnormalized := by
  obtain ⟨cols', r, e⟩ := nrm_eval_mi rfl h ⟨ho, hn, fun _ => ⟨_, h1⟩, fun _ => ⟨_, h3⟩, by simp⟩ hc hs hv h2 hl
  rw [e, C92_mi_bayes al K hm (h.unnormalized (.inl rfl) rfl) hb hc (nrm_plain ho) h1 h3 (.rename r) hN h2 hl]

/-- **C93** ANSB, also when there is no finite value. -/
theorem C93_mi_normalize_ansb (h : Call W .mi .ansb a kw b) (hb : b.Valid) (hc : cond.isVal = false)
    (hn : kwOr kw "normalize" (.bool false) = .bool true) (ho : kwOr kw "offset" (.int 0) = .int 0) (u : ℝ) (hu : 0 ≤ u)
    (h1 : (kwOr kw "undersampled" (.num (1 / 10))).toNum = some u) (hs : List.Forall₂ Symbols cols data)
    (hv : ∀ c ∈ cols, Varies c) (hN : 0 < N) (h2 : 2 ≤ cols.length) (hl : ∀ c ∈ cols, c.length = N) :
    imMI W.symbols data a cond kw = imMI W (cols.map .ints) a cond kw.unnormalized := by
  obtain ⟨cols', r, e⟩ := nrm_eval_mi rfl h ⟨ho, hn, by simp, by simp, fun _ => ⟨_, h1⟩⟩ hc hs hv h2 hl
  rw [e, C92_mi_ansb (h.unnormalized (.inl rfl) rfl) hb hc (nrm_plain ho) u hu h1 (.rename r) hN h2 hl]

/-- **C93** NSB, also when there is no finite value. -/
theorem C93_mi_normalize_nsb (h : Call W .mi .nsb a kw b) (hb : b.Valid) (hc : cond.isVal = false)
    (hn : kwOr kw "normalize" (.bool false) = .bool true) (ho : kwOr kw "offset" (.int 0) = .int 0) (K : Option Nat)
    (hK : kwOr kw "K" .none = idnK K) (hp : ∀ k, K = some k → 0 < k) (hs : List.Forall₂ Symbols cols data)
    (hv : ∀ c ∈ cols, Varies c) (hN : 0 < N) (h2 : 2 ≤ cols.length) (hl : ∀ c ∈ cols, c.length = N) :
    imMI W.symbols data a cond kw = imMI W (cols.map .ints) a cond kw.unnormalized := by
  obtain ⟨cols', r, e⟩ := nrm_eval_mi rfl h ⟨ho, hn, by simp, fun _ => by rw [hK]; cases K <;> exact ⟨_, rfl⟩, by simp⟩ hc hs hv h2 hl
  rw [e, C92_mi_nsb (h.unnormalized (.inl rfl) rfl) hb hc (nrm_plain ho) K hK hp (.rename r) hN h2 hl]

/-! ## Conditional mutual information -/

/-- `normalize=True` is without effect on `im.conditional_mutual_information` and on `im.mutual_information(…, cond=…)` -/
def CmiUnnormalized (W : World) (a : PyName) (kw : Kw) (cols : List (List Int)) (z : List Int) (data : List PyData) (dz : PyData) : Prop :=
  imCMI W.symbols data a (.val dz) kw = imCMI W (cols.map .ints) a (.val (.ints z)) kw.unnormalized ∧
  imMI W.symbols data a (.val dz) kw = imMI W (cols.map .ints) a (.val (.ints z)) kw.unnormalized

/-- **C93** the same for the conditional mutual information, where the condition is scaled too. -/
theorem C93_cmi_normalize_bias {m : Method} (hf : FamMethod f m) (h : Call W .cmi f a kw b) (hb : b.Valid)
    (hn : kwOr kw "normalize" (.bool false) = .bool true) (ho : kwOr kw "offset" (.int 0) = .int 0) (hs : List.Forall₂ Symbols cols data)
    (hz : Symbols z dz) (hv : ∀ c ∈ z :: cols, Varies c) (hN : 0 < z.length) (h2 : 2 ≤ cols.length) (hl : ∀ c ∈ cols, c.length = z.length) :
    CmiUnnormalized W a kw cols z data dz := by
  have hn' : nrmFam f = true := by cases hf <;> rfl
  obtain ⟨cols', z', r, rz, e⟩ := nrm_eval_cmi hn' h ⟨ho, hn, by (rintro rfl; cases hf), by (rintro (rfl | rfl) <;> cases hf), by (rintro rfl; cases hf)⟩ hs hz hv h2 hl
  have c := C92_cmi_bias hf (h.unnormalized (.inr rfl) hn') hb (nrm_plain ho) (.rename r rz) hN h2 hl
  exact ⟨by rw [e.1, c.1], by rw [e.2, c.2]⟩

/-- **C93** the Bayesian estimator. -/
theorem C93_cmi_normalize_bayes (al : AlphaArg) (K : Option PyArg) {m : Method} (hm : (BiasClass.bayes al K).Means m)
    (h : Call W .cmi .bayes a kw b) (hb : b.Valid)
    (hn : kwOr kw "normalize" (.bool false) = .bool true) (ho : kwOr kw "offset" (.int 0) = .int 0)
    (h1 : (kw "alpha").bind PyVal.toAlpha = some al) (h3 : (kwOr kw "K" .none).toOptArg = some K) (hs : List.Forall₂ Symbols cols data)
    (hz : Symbols z dz) (hv : ∀ c ∈ z :: cols, Varies c) (hN : 0 < z.length) (h2 : 2 ≤ cols.length) (hl : ∀ c ∈ cols, c.length = z.length) :
    CmiUnnormalized W a kw cols z data dz := by
  obtain ⟨cols', z', r, rz, e⟩ := nrm_eval_cmi rfl h ⟨ho, hn, fun _ => ⟨_, h1⟩, fun _ => ⟨_, h3⟩, by simp⟩ hs hz hv h2 hl
  have c := C92_cmi_bayes al K hm (h.unnormalized (.inr rfl) rfl) hb (nrm_plain ho) h1 h3 (.rename r rz) hN h2 hl
  exact ⟨by rw [e.1, c.1], by rw [e.2, c.2]⟩

/-- **C93** ANSB, also when there is no finite value. -/
theorem C93_cmi_normalize_ansb (h : Call W .cmi .ansb a kw b) (hb : b.Valid)
    (hn : kwOr kw "normalize" (.bool false) = .bool true) (ho : kwOr kw "offset" (.int 0) = .int 0) (u : ℝ) (hu : 0 ≤ u)
    (h1 : (kwOr kw "undersampled" (.num (1 / 10))).toNum = some u) (hs : List.Forall₂ Symbols cols data)
    (hz : Symbols z dz) (hv : ∀ c ∈ z :: cols, Varies c) (hN : 0 < z.length) (h2 : 2 ≤ cols.length) (hl : ∀ c ∈ cols, c.length = z.length) :
    CmiUnnormalized W a kw cols z data dz := by
  obtain ⟨cols', z', r, rz, e⟩ := nrm_eval_cmi rfl h ⟨ho, hn, by simp, by simp, fun _ => ⟨_, h1⟩⟩ hs hz hv h2 hl
  have c := C92_cmi_ansb (h.unnormalized (.inr rfl) rfl) hb (nrm_plain ho) u hu h1 (.rename r rz) hN h2 hl
  exact ⟨by rw [e.1, c.1], by rw [e.2, c.2]⟩

/-- **C93** NSB, also when there is no finite value. -/
theorem C93_cmi_normalize_nsb (h : Call W .cmi .nsb a kw b) (hb : b.Valid)
    (hn : kwOr kw "normalize" (.bool false) = .bool true) (ho : kwOr kw "offset" (.int 0) = .int 0) (K : Option Nat)
    (hK : kwOr kw "K" .none = idnK K) (hp : ∀ k, K = some k → 0 < k) (hs : List.Forall₂ Symbols cols data)
    (hz : Symbols z dz) (hv : ∀ c ∈ z :: cols, Varies c) (hN : 0 < z.length) (h2 : 2 ≤ cols.length) (hl : ∀ c ∈ cols, c.length = z.length) :
    CmiUnnormalized W a kw cols z data dz := by
  obtain ⟨cols', z', r, rz, e⟩ := nrm_eval_cmi rfl h ⟨ho, hn, by simp, fun _ => by rw [hK]; cases K <;> exact ⟨_, rfl⟩, by simp⟩ hs hz hv h2 hl
  have c := C92_cmi_nsb (h.unnormalized (.inr rfl) rfl) hb (nrm_plain ho) K hK hp (.rename r rz) hN h2 hl
  exact ⟨by rw [e.1, c.1], by rw [e.2, c.2]⟩

end Verif
