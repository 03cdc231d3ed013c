import Verif.Model.EndToEndDiv
import Verif.Lemmas.EndToEndEntropy
import Verif.Props.KernelDiv3
import Verif.Spec.EndToEnd

/-!
# Lemmas: what a call of a composite measure evaluates
-/

set_option linter.unusedSimpArgs false

namespace Verif

theorem kldEntry_names {L : PyLower} {a : PyName} {f : Fam} (h : Names L .h a f) : kldEntry L (some a) = .ok f := by
  obtain ⟨s, rfl, hs⟩ := h
  exact (C69_kld_names L (some (.str s)) f).1.2 ⟨s, rfl, hs⟩

theorem kldEntry_unnamed {L : PyLower} {a : PyName} (h : ¬ Resolves L .h a) : kldEntry L (some a) = .error .valueError := by
  rcases (C69_kld_names L (some a) .discrete).2.1 with e | ⟨g, e⟩
  · exact e
  · obtain ⟨s, hs, h2⟩ := (C69_kld_names L (some a) g).1.1 e
    exact absurd ⟨s, g, Option.some.inj hs, h2⟩ h

theorem jsdEntry_names {L : PyLower} {a : PyName} {f : Fam} (h : Names L .h a f)
    (hf : f ∈ [Fam.discrete, .shrink, .bayes, .ordinal, .kernel]) {al : List Bool} (hal : ∀ x ∈ al, x = true) :
    jsdEntry L a al = .ok f := by
  obtain ⟨s, rfl, hs⟩ := h
  exact (C69_jsd_names L (.str s) al f).1.2 ⟨hal, hf, s, rfl, hs⟩

theorem isArrayLike_all {data : List PyData} (h : ∀ x ∈ data, x.isArrayLike = true) :
    ∀ y ∈ data.map PyData.isArrayLike, y = true := by
  intro y hy
  obtain ⟨x, hx, rfl⟩ := List.mem_map.1 hy
  exact h x hx

theorem runCall_globalOf (W : World) (f : Fam) (data : List PyData) (cond : CondKw PyData) (kw : Kw) :
    runCall (buildEst W) (Est.result W) (.ok { cls := ⟨.h, f⟩, data := data, cond := cond, kw := kw }) = globalOf W f data cond kw := rfl

/-- a call of the Jensen–Shannon divergence that reaches the computation -/
theorem jsd_eval (W : World) (oj : Est → List PyData → Except Exc ℝ) (data : List PyData) (a : PyName) (kw : Kw) {f : Fam}
    (hf : f ∈ [Fam.discrete, .shrink, .bayes, .ordinal, .kernel]) (ha : Names W.lower .h a f) (hne : data ≠ [])
    (hal : ∀ x ∈ data, x.isArrayLike = true) (h3 : ∀ r ∈ requiredKw .h f, kw r ≠ none) (h4 : Only (acceptedKw W.b0 ⟨.h, f⟩) kw) :
    ∃ x p, imJsd W oj data a .absent kw =
        (if f = .kernel then jsdPool data else .ok ()) >>= (fun _ => (jsdValue W data ⟨⟨.h, f⟩, [x], none, p⟩).getD (oj ⟨⟨.h, f⟩, [x], none, p⟩ data)) ∧
      (∀ r ∈ requiredKw .h f, p r = kw r) ∧ ∀ o ∈ optionalKw W.b0 ⟨.h, f⟩, p o.1 = some (kwOr kw o.1 o.2) := by
  cases data with
  | nil => exact absurd rfl hne
  | cons x t =>
    obtain ⟨p, hp, hr, ho⟩ := built W { cls := ⟨.h, f⟩, data := [x], cond := .absent, kw := kw } trivial trivial h3 h4
    refine ⟨x, p, ?_, hr, ho⟩
    simp only [imJsd, jsdEntry_names ha hf (isArrayLike_all hal), bind, Except.bind, hp]
    split_ifs <;> simp [pure, Except.pure, CondKw.toOption]

section
variable {W : World} {oj : Est → List PyData → Except Exc ℝ} {data : List PyData} {a : PyName} {kw : Kw}

theorem e2e_jsd_discrete (ha : Names W.lower .h a .discrete) (hne : data ≠ []) (hal : ∀ x ∈ data, x.isArrayLike = true)
    (h4 : Only (acceptedKw W.b0 ⟨.h, .discrete⟩) kw) {b : Base} (hb : (kwOr kw "base" W.b0).toBase = some b) {xs : List EInput}
    (hx : data.mapM PyData.toEInput = some xs) : imJsd W oj data a .absent kw = jsdDiscrete .discrete b xs := by
  obtain ⟨x, p, e, hr, ho⟩ := jsd_eval W oj data a kw (by simp) ha hne hal (by simp [requiredKw]) h4
  have g : Est.get ⟨⟨.h, .discrete⟩, [x], none, p⟩ "base" PyVal.toBase = some b := by
    show (p "base").bind _ = _
    rw [ho ("base", W.b0) (by simp [optionalKw, ownKw, normalizeKw, commonKw])]; exact hb
  rw [e]
  simp [jsdValue, Est.dclass, g, hx, bind, Except.bind]

theorem e2e_jsd_shrink (ha : Names W.lower .h a .shrink) (hne : data ≠ []) (hal : ∀ x ∈ data, x.isArrayLike = true)
    (h4 : Only (acceptedKw W.b0 ⟨.h, .shrink⟩) kw) {b : Base} (hb : (kwOr kw "base" W.b0).toBase = some b) {xs : List EInput}
    (hx : data.mapM PyData.toEInput = some xs) : imJsd W oj data a .absent kw = jsdDiscrete .shrink b xs := by
  obtain ⟨x, p, e, hr, ho⟩ := jsd_eval W oj data a kw (by simp) ha hne hal (by simp [requiredKw]) h4
  have g : Est.get ⟨⟨.h, .shrink⟩, [x], none, p⟩ "base" PyVal.toBase = some b := by
    show (p "base").bind _ = _
    rw [ho ("base", W.b0) (by simp [optionalKw, ownKw, normalizeKw, commonKw])]; exact hb
  rw [e]
  simp [jsdValue, Est.dclass, g, hx, bind, Except.bind]

theorem e2e_jsd_bayes (ha : Names W.lower .h a .bayes) (hne : data ≠ []) (hal : ∀ x ∈ data, x.isArrayLike = true)
    (h4 : Only (acceptedKw W.b0 ⟨.h, .bayes⟩) kw) {al : AlphaArg} {K : Option Nat} {b : Base}
    (h1 : (kw "alpha").bind PyVal.toAlpha = some al) (h2 : (kwOr kw "K" .none).toOptNat = some K)
    (hb : (kwOr kw "base" W.b0).toBase = some b) {xs : List EInput}
    (hx : data.mapM PyData.toEInput = some xs) : imJsd W oj data a .absent kw = jsdDiscrete (.bayes al K) b xs := by
  obtain ⟨x, p, e, hr, ho⟩ := jsd_eval W oj data a kw (f := .bayes) (by simp) ha hne hal
    (by simp only [requiredKw, List.mem_singleton, forall_eq]; intro h0; rw [h0] at h1; simp at h1) h4
  have g : Est.get ⟨⟨.h, .bayes⟩, [x], none, p⟩ "base" PyVal.toBase = some b := by
    show (p "base").bind _ = _
    rw [ho ("base", W.b0) (by simp [optionalKw, ownKw, normalizeKw, commonKw])]; exact hb
  have g1 : Est.get ⟨⟨.h, .bayes⟩, [x], none, p⟩ "alpha" PyVal.toAlpha = some al := by
    show (p "alpha").bind _ = _
    rw [hr "alpha" (by simp [requiredKw])]; exact h1
  have g2 : Est.get ⟨⟨.h, .bayes⟩, [x], none, p⟩ "K" PyVal.toOptNat = some K := by
    show (p "K").bind _ = _
    rw [ho ("K", .none) (by simp [optionalKw, ownKw, normalizeKw, commonKw])]; exact h2
  rw [e]
  simp [jsdValue, Est.dclass, g, g1, g2, hx, bind, Except.bind]

theorem e2e_jsd_ordinal (ha : Names W.lower .h a .ordinal) (hne : data ≠ []) (hal : ∀ x ∈ data, x.isArrayLike = true)
    (h4 : Only (acceptedKw W.b0 ⟨.h, .ordinal⟩) kw) {d s : PyArg} {st : Bool} {b : Base}
    (h1 : (kw "embedding_dim").bind PyVal.toArg = some d) (h2 : (kwOr kw "step_size" (.int 1)).toArg = some s)
    (h3 : (kwOr kw "stable" (.bool false)).toBool = some st)
    (hb : (kwOr kw "base" W.b0).toBase = some b) {xs : List (List ℝ)}
    (hx : data.mapM PyData.toSeries = some xs) :
    imJsd W oj data a .absent kw = ordJsd W.quick xs { dim := d, step := s, stable := st } b := by
  obtain ⟨x, p, e, hr, ho⟩ := jsd_eval W oj data a kw (f := .ordinal) (by simp) ha hne hal
    (by simp only [requiredKw, List.mem_singleton, forall_eq]; intro h0; rw [h0] at h1; simp at h1) h4
  have g : Est.get ⟨⟨.h, .ordinal⟩, [x], none, p⟩ "base" PyVal.toBase = some b := by
    show (p "base").bind _ = _
    rw [ho ("base", W.b0) (by simp [optionalKw, ownKw, normalizeKw, commonKw])]; exact hb
  have g1 : Est.get ⟨⟨.h, .ordinal⟩, [x], none, p⟩ "embedding_dim" PyVal.toArg = some d := by
    show (p "embedding_dim").bind _ = _
    rw [hr "embedding_dim" (by simp [requiredKw])]; exact h1
  have g2 : Est.get ⟨⟨.h, .ordinal⟩, [x], none, p⟩ "step_size" PyVal.toArg = some s := by
    show (p "step_size").bind _ = _
    rw [ho ("step_size", .int 1) (by simp [optionalKw, ownKw, normalizeKw, commonKw])]; exact h2
  have g3 : Est.get ⟨⟨.h, .ordinal⟩, [x], none, p⟩ "stable" PyVal.toBool = some st := by
    show (p "stable").bind _ = _
    rw [ho ("stable", .bool false) (by simp [optionalKw, ownKw, normalizeKw, commonKw])]; exact h3
  rw [e]
  simp [jsdValue, Est.ord, g, g1, g2, g3, hx, bind, Except.bind]

theorem e2e_jsd_kernel (ha : Names W.lower .h a .kernel) (hne : data ≠ []) (hal : ∀ x ∈ data, x.isArrayLike = true)
    (h4 : Only (acceptedKw W.b0 ⟨.h, .kernel⟩) kw) {h : PyArg} {kn : Kernel} {w : Int} {b : Base}
    (h1 : (kw "bandwidth").bind PyVal.toArg = some h) (h2 : (kw "kernel").bind (PyVal.toKernel W.eig) = some kn)
    (h3 : (kwOr kw "workers" (.int 1)).toInt = some w)
    (hb : (kwOr kw "base" W.b0).toBase = some b) {vs : List KVar}
    (hx : data.mapM PyData.toKVar = some vs) :
    imJsd W oj data a .absent kw = kernelJsd vs { bandwidth := h, kernel := kn, workers := resolveWorkers W.cpu w } b := by
  obtain ⟨x, p, e, hr, ho⟩ := jsd_eval W oj data a kw (f := .kernel) (by simp) ha hne hal
    (by simp only [requiredKw, List.mem_cons, List.not_mem_nil, or_false, forall_eq_or_imp, forall_eq]
        exact ⟨fun h0 => by rw [h0] at h1; simp at h1, fun h0 => by rw [h0] at h2; simp at h2⟩) h4
  have g : Est.get ⟨⟨.h, .kernel⟩, [x], none, p⟩ "base" PyVal.toBase = some b := by
    show (p "base").bind _ = _
    rw [ho ("base", W.b0) (by simp [optionalKw, ownKw, normalizeKw, commonKw])]; exact hb
  have g1 : Est.get ⟨⟨.h, .kernel⟩, [x], none, p⟩ "bandwidth" PyVal.toArg = some h := by
    show (p "bandwidth").bind _ = _
    rw [hr "bandwidth" (by simp [requiredKw])]; exact h1
  have g2 : Est.get ⟨⟨.h, .kernel⟩, [x], none, p⟩ "kernel" (PyVal.toKernel W.eig) = some kn := by
    show (p "kernel").bind _ = _
    rw [hr "kernel" (by simp [requiredKw])]; exact h2
  have g3 : Est.get ⟨⟨.h, .kernel⟩, [x], none, p⟩ "workers" PyVal.toInt = some w := by
    show (p "workers").bind _ = _
    rw [ho ("workers", .int 1) (by simp [optionalKw, ownKw, normalizeKw, commonKw])]; exact h3
  rw [e]
  simp only [jsdValue, Est.kde, g, g1, g2, g3, hx, bind, Except.bind, if_true, jsdPool, Option.bind, Option.getD_some]
  cases hcv : concatVars vs with
  | error e => simp [Except.map, kernelJsd, hcv, bind, Except.bind]
  | ok m => simp [Except.map]

end

end Verif
