import Verif.Lemmas.EndToEndTest6

/-!
# Statistical tests end to end: the objects of transfer entropy
-/

set_option linter.unusedSimpArgs false

namespace Verif

open Spec

/-- a transfer entropy as a computation: shift, prepare, cut into tables (with the draws `rnd`), evaluate -/
noncomputable def viaObs {β α : Type} (prep : Nat → Nat → List β → Except Exc (List α)) (Φ : TESlices α → Except Exc ℝ) (propTime offset : Option PyArg)
    (srcHist destHist step : PyArg) (xs ys : List β) (rnd : SrcRandom) : Except Exc ℝ := do
  let c ← teInit xs ys propTime offset step
  let xs ← prep c.1.length 0 c.1
  let ys ← prep c.1.length 1 c.2
  let t ← teObservations xs ys srcHist destHist step rnd
  Φ t

/-- series of equal length stay of equal length -/
def PrepLen {β α : Type} (prep : (Nat → Nat → Nat → ℝ) → Nat → Nat → List β → Except Exc (List α)) : Prop :=
  ∀ d n l₁ l₂ r₁ r₂, l₁.length = l₂.length → prep d n 0 l₁ = .ok r₁ → prep d n 1 l₂ = .ok r₂ → r₁.length = r₂.length

theorem prepLen_id {β : Type} : PrepLen (fun _ _ _ (l : List β) => (pure l : Except Exc (List β))) := by
  intro d n l₁ l₂ r₁ r₂ h h1 h2
  cases h1; cases h2; exact h

theorem jitter1_length' (e : Option (Nat → ℝ)) (l : List ℝ) : (jitter1 e l).length = l.length := by
  cases e <;> simp [jitter1]

theorem prepLen_jitter (f : (Nat → Nat → Nat → ℝ) → Nat → Option (Nat → ℝ)) :
    PrepLen (fun d _ i l => (pure (jitter1 (f d i) l) : Except Exc (List ℝ))) := by
  intro d n l₁ l₂ r₁ r₂ h h1 h2
  cases h1; cases h2; simp only [jitter1_length', h]

theorem windows_length_congr {α : Type} [Inhabited α] {l₁ l₂ : List α} (h : l₁.length = l₂.length) (d s : Nat) :
    (windows l₁ d s).length = (windows l₂ d s).length := by
  simp only [windows, h, List.length_map]

theorem symbolizeInt_length_congr {α : Type} [LinearOrder α] [Inhabited α] (q : Argsort α) {l₁ l₂ : List α} (h : l₁.length = l₂.length) {d s : Int} {st : Bool} {r₁ r₂ : List Int}
    (h1 : symbolizeInt q l₁ d s st = .ok r₁) (h2 : symbolizeInt q l₂ d s st = .ok r₂) : r₁.length = r₂.length := by
  unfold symbolizeInt at h1 h2
  obtain ⟨p₁, e1, h1⟩ := chk_bind h1
  obtain ⟨c₁, e2, h1⟩ := chk_bind h1
  obtain ⟨p₂, e3, h2⟩ := chk_bind h2
  obtain ⟨c₂, e4, h2⟩ := chk_bind h2
  cases h1; cases h2
  unfold symbolize at e1 e3
  split_ifs at e1 e3
  cases e1; cases e3
  have a1 := mapM_length e2
  have a2 := mapM_length e4
  simp only [List.length_map] at a1 a2 ⊢
  rw [a1, a2, windows_length_congr h]

section
variable {e : Est} {W : World}

/-- a transfer-entropy object as a computation on tables -/
def TEForm (W : World) (e : Est) (x y : PyData) (f : TEObj) : Prop :=
  ∃ (β α : Type) (_ : Inhabited α) (conv : PyData → Option (List β)) (prep : (Nat → Nat → Nat → ℝ) → Nat → Nat → List β → Except Exc (List α))
    (Φ : TESlices α → Except Exc ℝ) (u o : Option PyArg) (p : TEParams) (xs ys : List β),
    e.get "prop_time" PyVal.toOptArg = some u ∧ e.get "offset" PyVal.toOptArg = some o ∧ e.te = some p ∧
    conv x = some xs ∧ conv y = some ys ∧ PrepLen prep ∧
    (∀ d rnd, f (W.withDraw d) rnd = viaObs (prep d) Φ u o p.srcHist p.destHist p.step xs ys rnd) ∧
    ∀ d x' y' xs' ys', conv x' = some xs' → conv y' = some ys' →
      (Est.teObj (W.withDraw d) { e with data := [x', y'] }).map (fun r => r >>= fun f => f (W.withDraw d) {}) =
        some (viaObs (prep d) Φ u o p.srcHist p.destHist p.step xs' ys' {})

theorem pair_some {α : Type} {x y : PyData} {conv : PyData → Option α} {cls : EstClass} {cond : Option PyData} {par : Kw} {d : α × α}
    (h : Est.pair ⟨cls, [x, y], cond, par⟩ conv = some d) : conv x = some d.1 ∧ conv y = some d.2 := by
  simp only [Est.pair] at h
  cases hx : conv x with
  | none => rw [hx] at h; cases h
  | some u =>
    cases hy : conv y with
    | none => rw [hx, hy] at h; cases h
    | some w => rw [hx, hy] at h; cases h; exact ⟨rfl, rfl⟩

theorem some_pair {α : Type} {x y : PyData} {conv : PyData → Option α} {cls : EstClass} {cond : Option PyData} {par : Kw} {u w : α}
    (hx : conv x = some u) (hy : conv y = some w) : Est.pair ⟨cls, [x, y], cond, par⟩ conv = some (u, w) := by
  simp only [Est.pair, hx, hy, bind, Option.bind]

theorem teObj_form {x y : PyData} (hd : e.data = [x, y]) {f : TEObj} (hob : e.teObj W = some (.ok f)) : TEForm W e x y f := by
  obtain ⟨⟨kind, fam⟩, data, cond, par⟩ := e
  simp only at hd
  subst hd
  have gets : ∀ {α : Type} (k : String) (conv : PyVal → Option α) (data' : List PyData),
      Est.get ⟨⟨kind, fam⟩, data', cond, par⟩ k conv = Est.get ⟨⟨kind, fam⟩, [x, y], cond, par⟩ k conv := fun k conv data' => rfl
  have tes : ∀ data', Est.te ⟨⟨kind, fam⟩, data', cond, par⟩ = Est.te ⟨⟨kind, fam⟩, [x, y], cond, par⟩ := fun data' => rfl
  have ordtes : ∀ data', Est.ordTe ⟨⟨kind, fam⟩, data', cond, par⟩ = Est.ordTe ⟨⟨kind, fam⟩, [x, y], cond, par⟩ := fun data' => rfl
  have kdes : ∀ d data', Est.kde (W.withDraw d) ⟨⟨kind, fam⟩, data', cond, par⟩ = Est.kde W ⟨⟨kind, fam⟩, [x, y], cond, par⟩ := fun d data' => rfl
  have ksgs : ∀ data', Est.ksg ⟨⟨kind, fam⟩, data', cond, par⟩ = Est.ksg ⟨⟨kind, fam⟩, [x, y], cond, par⟩ := fun data' => rfl
  have bcs : ∀ data', Est.bclass ⟨⟨kind, fam⟩, data', cond, par⟩ = Est.bclass ⟨⟨kind, fam⟩, [x, y], cond, par⟩ := fun data' => rfl
  unfold Est.teObj at hob
  obtain ⟨b, hb, hob⟩ := Option.bind_eq_some_iff.1 hob
  obtain ⟨u, hu, hob⟩ := Option.bind_eq_some_iff.1 hob
  obtain ⟨o, ho, hob⟩ := Option.bind_eq_some_iff.1 hob
  obtain ⟨p, hp, hob⟩ := Option.bind_eq_some_iff.1 hob
  cases fam with
  | discrete =>
    obtain ⟨⟨xs, ys⟩, hxy, hob⟩ := Option.bind_eq_some_iff.1 hob
    obtain ⟨hx, hy⟩ := pair_some hxy
    obtain ⟨c, hc, hob⟩ := chk_bind (Option.some.inj hob)
    cases hob
    refine ⟨Int, Int, inferInstance, PyData.toInts, fun _ _ _ l => pure l, fun t => combinedTE (logBase b) t none, u, o, p, xs, ys, hu, ho, hp, hx, hy, prepLen_id, fun d rnd => ?_, fun d x' y' xs' ys' hx' hy' => ?_⟩
    · simp only [viaObs, hc, bind, Except.bind, pure, Except.pure]
    · simp only [Est.teObj, gets _ _ [x', y'], tes [x', y'], ordtes [x', y'], kdes d [x', y'], ksgs [x', y'], bcs [x', y'], hb, hu, ho, hp, some_pair hx' hy', bind, Option.bind, Option.map_some, viaObs]
      cases teInit xs' ys' u o p.step with
      | error e => rfl
      | ok c =>
        simp only [Except.bind, pure, Except.pure]
  | millerMadow =>
    obtain ⟨⟨xs, ys⟩, hxy, hob⟩ := Option.bind_eq_some_iff.1 hob
    obtain ⟨hx, hy⟩ := pair_some hxy
    obtain ⟨c, hc, hob⟩ := chk_bind (Option.some.inj hob)
    cases hob
    refine ⟨Int, Int, inferInstance, PyData.toInts, fun _ _ _ l => pure l, fun t => combinedTE (logBase b) t (some b), u, o, p, xs, ys, hu, ho, hp, hx, hy, prepLen_id, fun d rnd => ?_, fun d x' y' xs' ys' hx' hy' => ?_⟩
    · simp only [viaObs, hc, bind, Except.bind, pure, Except.pure]
    · simp only [Est.teObj, gets _ _ [x', y'], tes [x', y'], ordtes [x', y'], kdes d [x', y'], ksgs [x', y'], bcs [x', y'], hb, hu, ho, hp, some_pair hx' hy', bind, Option.bind, Option.map_some, viaObs]
      cases teInit xs' ys' u o p.step with
      | error e => rfl
      | ok c =>
        simp only [Except.bind, pure, Except.pure]
  | kernel =>
    obtain ⟨⟨xs, ys⟩, hxy, hob⟩ := Option.bind_eq_some_iff.1 hob
    obtain ⟨hx, hy⟩ := pair_some hxy
    obtain ⟨cfg, hcfg, hob⟩ := Option.bind_eq_some_iff.1 hob
    obtain ⟨c, hc, hob⟩ := chk_bind (Option.some.inj hob)
    cases hob
    refine ⟨ℝ, ℝ, inferInstance, PyData.toSeries, fun _ _ _ l => pure l, fun t => (do let sp ← constructJointSpaces t; let ls ← kernelTECalc cfg b sp; meanOrNan ls), u, o, p, xs, ys, hu, ho, hp, hx, hy, prepLen_id, fun d rnd => ?_, fun d x' y' xs' ys' hx' hy' => ?_⟩
    · simp only [viaObs, hc, bind, Except.bind, pure, Except.pure]
    · simp only [Est.teObj, gets _ _ [x', y'], tes [x', y'], ordtes [x', y'], kdes d [x', y'], ksgs [x', y'], bcs [x', y'], hb, hu, ho, hp, some_pair hx' hy', hcfg, bind, Option.bind, Option.map_some, viaObs]
      cases teInit xs' ys' u o p.step with
      | error e => rfl
      | ok c =>
        simp only [Except.bind, pure, Except.pure]
  | metric =>
    obtain ⟨⟨xs, ys⟩, hxy, hob⟩ := Option.bind_eq_some_iff.1 hob
    obtain ⟨hx, hy⟩ := pair_some hxy
    obtain ⟨cfg, hcfg, hob⟩ := Option.bind_eq_some_iff.1 hob
    obtain ⟨v, hv, hob⟩ := Option.bind_eq_some_iff.1 hob
    obtain ⟨c, hc, hob⟩ := chk_bind (Option.some.inj hob)
    obtain ⟨kk, hkk, hob⟩ := chk_bind hob
    cases hob
    refine ⟨ℝ, ℝ, inferInstance, PyData.toSeries, fun d _ i l => pure (jitter1 ((W.withDraw d).noise1 v i) l), fun t => (do let sp ← constructJointSpaces t; let ls ← ksgTECalc cfg b sp; meanOrNan ls), u, o, p, xs, ys, hu, ho, hp, hx, hy, prepLen_jitter (fun d i => (W.withDraw d).noise1 v i), fun d rnd => ?_, fun d x' y' xs' ys' hx' hy' => ?_⟩
    · simp only [viaObs, hc, bind, Except.bind, pure, Except.pure]
    · simp only [Est.teObj, gets _ _ [x', y'], tes [x', y'], ordtes [x', y'], kdes d [x', y'], ksgs [x', y'], bcs [x', y'], hb, hu, ho, hp, some_pair hx' hy', hcfg, hv, bind, Option.bind, Option.map_some, viaObs]
      cases teInit xs' ys' u o p.step with
      | error e => rfl
      | ok c =>
        simp only [Except.bind, pure, Except.pure, hkk]
  | renyi =>
    obtain ⟨⟨xs, ys⟩, hxy, hob⟩ := Option.bind_eq_some_iff.1 hob
    obtain ⟨hx, hy⟩ := pair_some hxy
    obtain ⟨k, hk, hob⟩ := Option.bind_eq_some_iff.1 hob
    obtain ⟨q, hq, hob⟩ := Option.bind_eq_some_iff.1 hob
    obtain ⟨v, hv, hob⟩ := Option.bind_eq_some_iff.1 hob
    obtain ⟨c, hc, hob⟩ := chk_bind (Option.some.inj hob)
    obtain ⟨kk, hkk, hob⟩ := chk_bind hob
    obtain ⟨k2, hk2, hob⟩ := chk_bind hob
    cases hob
    refine ⟨ℝ, ℝ, inferInstance, PyData.toSeries, fun d _ i l => pure (jitter1 ((W.withDraw d).noise1 v i) l), fun t => (do let sp ← constructJointSpaces t; entropyTE (fun a => expEntropy (expFam .renyi).1 a k q b) sp), u, o, p, xs, ys, hu, ho, hp, hx, hy, prepLen_jitter (fun d i => (W.withDraw d).noise1 v i), fun d rnd => ?_, fun d x' y' xs' ys' hx' hy' => ?_⟩
    · simp only [viaObs, hc, bind, Except.bind, pure, Except.pure]
    · simp only [Est.teObj, gets _ _ [x', y'], tes [x', y'], ordtes [x', y'], kdes d [x', y'], ksgs [x', y'], bcs [x', y'], hb, hu, ho, hp, some_pair hx' hy', hk, hq, hv, bind, Option.bind, Option.map_some, viaObs]
      cases teInit xs' ys' u o p.step with
      | error e => rfl
      | ok c =>
        simp only [Except.bind, pure, Except.pure, hkk, hk2]
  | tsallis =>
    obtain ⟨⟨xs, ys⟩, hxy, hob⟩ := Option.bind_eq_some_iff.1 hob
    obtain ⟨hx, hy⟩ := pair_some hxy
    obtain ⟨k, hk, hob⟩ := Option.bind_eq_some_iff.1 hob
    obtain ⟨q, hq, hob⟩ := Option.bind_eq_some_iff.1 hob
    obtain ⟨v, hv, hob⟩ := Option.bind_eq_some_iff.1 hob
    obtain ⟨c, hc, hob⟩ := chk_bind (Option.some.inj hob)
    obtain ⟨kk, hkk, hob⟩ := chk_bind hob
    obtain ⟨k2, hk2, hob⟩ := chk_bind hob
    cases hob
    refine ⟨ℝ, ℝ, inferInstance, PyData.toSeries, fun d _ i l => pure (jitter1 ((W.withDraw d).noise1 v i) l), fun t => (do let sp ← constructJointSpaces t; entropyTE (fun a => expEntropy (expFam .tsallis).1 a k q b) sp), u, o, p, xs, ys, hu, ho, hp, hx, hy, prepLen_jitter (fun d i => (W.withDraw d).noise1 v i), fun d rnd => ?_, fun d x' y' xs' ys' hx' hy' => ?_⟩
    · simp only [viaObs, hc, bind, Except.bind, pure, Except.pure]
    · simp only [Est.teObj, gets _ _ [x', y'], tes [x', y'], ordtes [x', y'], kdes d [x', y'], ksgs [x', y'], bcs [x', y'], hb, hu, ho, hp, some_pair hx' hy', hk, hq, hv, bind, Option.bind, Option.map_some, viaObs]
      cases teInit xs' ys' u o p.step with
      | error e => rfl
      | ok c =>
        simp only [Except.bind, pure, Except.pure, hkk, hk2]
  | nsb =>
    obtain ⟨⟨xs, ys⟩, hxy, hob⟩ := Option.bind_eq_some_iff.1 hob
    obtain ⟨hx, hy⟩ := pair_some hxy
    obtain ⟨K, hK, hob⟩ := Option.bind_eq_some_iff.1 hob
    obtain ⟨c, hc, hob⟩ := chk_bind (Option.some.inj hob)
    obtain ⟨k, hk, hob⟩ := chk_bind hob
    cases hob
    refine ⟨Int, Int, inferInstance, PyData.toInts, fun _ _ _ l => pure l, fun t => teFromEntropies (nsbH W.find k b) t, u, o, p, xs, ys, hu, ho, hp, hx, hy, prepLen_id, fun d rnd => ?_, fun d x' y' xs' ys' hx' hy' => ?_⟩
    · simp only [viaObs, hc, bind, Except.bind, pure, Except.pure]
      rfl
    · simp only [Est.teObj, gets _ _ [x', y'], tes [x', y'], ordtes [x', y'], kdes d [x', y'], ksgs [x', y'], bcs [x', y'], hb, hu, ho, hp, some_pair hx' hy', hK, bind, Option.bind, Option.map_some, viaObs]
      cases teInit xs' ys' u o p.step with
      | error e => rfl
      | ok c =>
        simp only [Except.bind, pure, Except.pure, hk]
        rfl
  | ordinal =>
    obtain ⟨⟨xs, ys⟩, hxy, hob⟩ := Option.bind_eq_some_iff.1 hob
    obtain ⟨hx, hy⟩ := pair_some hxy
    obtain ⟨q, hq, hob⟩ := Option.bind_eq_some_iff.1 hob
    have hqp : q.te = p := by
      unfold Est.ordTe at hq
      obtain ⟨_, _, hq⟩ := Option.bind_eq_some_iff.1 hq
      obtain ⟨t, ht, hq⟩ := Option.bind_eq_some_iff.1 hq
      obtain ⟨_, _, hq⟩ := Option.bind_eq_some_iff.1 hq
      rw [hp] at ht
      cases ht; cases hq; rfl
    obtain ⟨c, hc, hob⟩ := chk_bind (Option.some.inj hob)
    obtain ⟨ds, hds, hob⟩ := chk_bind hob
    cases hob
    rw [hqp] at hc hds
    refine ⟨ℝ, Int, inferInstance, PyData.toSeries, fun _ n _ l => (do let ds ← ordPairChecks 0 n q.dim p.step; symbolizeInt W.quick l ds.1 ds.2 q.stable),
      fun t => combinedTE (logBase b) t none, u, o, p, xs, ys, hu, ho, hp, hx, hy, ?_, fun d rnd => ?_, fun d x' y' xs' ys' hx' hy' => ?_⟩
    · intro d n l₁ l₂ r₁ r₂ h h1 h2
      obtain ⟨ds₁, e1, h1⟩ := chk_bind h1
      obtain ⟨ds₂, e2, h2⟩ := chk_bind h2
      rw [e1] at e2
      cases e2
      exact symbolizeInt_length_congr _ h h1 h2
    · simp only [viaObs, hc, hds, bind, Except.bind, hqp]
      rfl
    · simp only [Est.teObj, gets _ _ [x', y'], tes [x', y'], ordtes [x', y'], hb, hu, ho, hp, hq, some_pair hx' hy', bind, Option.bind, Option.map_some,
        viaObs, hqp]
      cases teInit xs' ys' u o p.step with
      | error e => rfl
      | ok c =>
        simp only [Except.bind]
        cases ordPairChecks 0 c.1.length q.dim p.step with
        | error e => rfl
        | ok ds => rfl
  | _ =>
    obtain ⟨⟨xs, ys⟩, hxy, hob⟩ := Option.bind_eq_some_iff.1 hob
    obtain ⟨hx, hy⟩ := pair_some hxy
    obtain ⟨c, hcc, hob⟩ := Option.bind_eq_some_iff.1 hob
    obtain ⟨c2, hc, hob⟩ := chk_bind (Option.some.inj hob)
    obtain ⟨kk, hkk, hob⟩ := chk_bind hob
    cases hob
    refine ⟨Int, Int, inferInstance, PyData.toInts, fun _ _ _ l => pure l, fun t => teFromEntropies (c.est b) t, u, o, p, xs, ys, hu, ho, hp, hx, hy, prepLen_id, fun d rnd => ?_, fun d x' y' xs' ys' hx' hy' => ?_⟩
    · simp only [viaObs, hc, bind, Except.bind, pure, Except.pure]
    · simp only [Est.teObj, gets _ _ [x', y'], tes [x', y'], ordtes [x', y'], kdes d [x', y'], ksgs [x', y'], bcs [x', y'], hb, hu, ho, hp, some_pair hx' hy', hcc, bind, Option.bind, Option.map_some, viaObs]
      cases teInit xs' ys' u o p.step with
      | error e => rfl
      | ok c =>
        simp only [Except.bind, pure, Except.pure, hkk]

end

end Verif
