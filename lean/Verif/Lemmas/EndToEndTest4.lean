import Verif.Lemmas.EndToEndTest3

/-!
# Statistical tests end to end: the objects of mutual information
-/

namespace Verif

open Spec

/-- the same estimator with the offset 0 -/
structure OffTwin (p p' : Kw) : Prop where
  zero : p' "offset" = some (.int 0)
  rest : ∀ k, k ≠ "offset" → p' k = p k

section
variable {e : Est} {p' : Kw} {data' : List PyData} {W : World}

theorem off_get (h : OffTwin e.par p') {α : Type} (k : String) (conv : PyVal → Option α) (hk : k ≠ "offset") :
    Est.get { e with data := data', par := p' } k conv = e.get k conv := by
  show (p' k).bind conv = (e.par k).bind conv
  rw [h.rest k hk]

theorem off_zero (h : OffTwin e.par p') : Est.get { e with data := data', par := p' } "offset" PyVal.toOptInt = some (some 0) := by
  show (p' "offset").bind _ = _
  rw [h.zero]; rfl

theorem off_kde (h : OffTwin e.par p') (d : Nat → Nat → Nat → ℝ) : Est.kde (W.withDraw d) { e with data := data', par := p' } = e.kde W := by
  simp only [Est.kde, off_get h _ _ (show "bandwidth" ≠ "offset" by decide), off_get h _ _ (show "kernel" ≠ "offset" by decide),
    off_get h _ _ (show "workers" ≠ "offset" by decide)]
  rfl

theorem off_ksg (h : OffTwin e.par p') : Est.ksg { e with data := data', par := p' } = e.ksg := by
  simp only [Est.ksg, off_get h _ _ (show "k" ≠ "offset" by decide), off_get h _ _ (show "ksg_id" ≠ "offset" by decide),
    off_get h _ _ (show "minkowski_p" ≠ "offset" by decide)]

theorem off_bclass (h : OffTwin e.par p') : Est.bclass { e with data := data', par := p' } = e.bclass := by
  simp only [Est.bclass, off_get h _ _ (show "alpha" ≠ "offset" by decide), off_get h _ _ (show "K" ≠ "offset" by decide),
    off_get h _ _ (show "undersampled" ≠ "offset" by decide)]

/-- integer objects: what a test needs to know -/
def IntsForm (W : World) (e : Est) (p' : Kw) (x y : PyData) (ob : MIObj) : Prop :=
  ∃ o u w F, e.get "offset" PyVal.toOptInt = some (some o) ∧ x.toInts = some u ∧ y.toInts = some w ∧ u.length = w.length ∧
    ob = .ints [selectRows u (keptX u.length o), selectRows w (keptY w.length o)] F ∧
    ∀ d x' y' u' w', x'.toInts = some u' → y'.toInts = some w' → u'.length = w'.length →
      Est.miObj (W.withDraw d) { e with data := [x', y'], par := p' } = some (.ok (.ints [u', w'] F))

/-- array objects -/
def ArrsForm (W : World) (e : Est) (p' : Kw) (x y : PyData) (ob : MIObj) : Prop :=
  ∃ o u w F, e.get "offset" PyVal.toOptInt = some (some o) ∧ x.toKVar = some u ∧ y.toKVar = some w ∧ u.len = w.len ∧
    ob = .arrs [u.sel (keptX u.len o), w.sel (keptY w.len o)] F ∧
    ∀ d x' y' u' w', x'.toKVar = some u' → y'.toKVar = some w' → u'.len = w'.len →
      Est.miObj (W.withDraw d) { e with data := [x', y'], par := p' } = some (.ok (.arrs [u', w'] F))

theorem mapM_pair {α β : Type} {f : α → Option β} {x y : α} {r : List β} (h : [x, y].mapM f = some r) :
    ∃ u w, f x = some u ∧ f y = some w ∧ r = [u, w] := by
  cases hx : f x with
  | none => simp [hx] at h
  | some u =>
    cases hy : f y with
    | none => simp [hx, hy] at h
    | some w => simp [hx, hy] at h; exact ⟨u, w, rfl, rfl, h.symm⟩

theorem pair_mapM {α β : Type} {f : α → Option β} {x y : α} {u w : β} (hx : f x = some u) (hy : f y = some w) : [x, y].mapM f = some [u, w] := by
  simp [hx, hy]

theorem chk_bind {κ τ : Type} {c : Except Exc κ} {F : κ → Except Exc τ} {r : τ} (h : (c >>= F) = .ok r) : ∃ k, c = .ok k ∧ F k = .ok r := by
  cases c with
  | error e => cases h
  | ok k => exact ⟨k, rfl, h⟩

/-- every approach but the ordinal one stores the kept rows and computes from them as from any two arrays of the same length -/
theorem miObj_form (h : OffTwin e.par p') (hf : e.cls.fam ≠ .ordinal) {x y : PyData} (hd : e.data = [x, y]) {ob : MIObj}
    (hn : e.cls.fam ≠ .discrete → e.cls.fam ≠ .millerMadow → e.get "normalize" PyVal.toBool = some false)
    (hob : e.miObj W = some (.ok ob)) : IntsForm W e p' x y ob ∨ ArrsForm W e p' x y ob := by
  obtain ⟨⟨kind, fam⟩, data, cond, par⟩ := e
  simp only at hd hf
  subst hd
  have gets : ∀ {α : Type} (k : String) (conv : PyVal → Option α) (data' : List PyData), k ≠ "offset" →
      Est.get ⟨⟨kind, fam⟩, data', cond, p'⟩ k conv = Est.get ⟨⟨kind, fam⟩, [x, y], cond, par⟩ k conv :=
    fun k conv data' hk => off_get (e := ⟨⟨kind, fam⟩, [x, y], cond, par⟩) (data' := data') h k conv hk
  have zero : ∀ data', Est.get ⟨⟨kind, fam⟩, data', cond, p'⟩ "offset" PyVal.toOptInt = some (some 0) :=
    fun data' => off_zero (e := ⟨⟨kind, fam⟩, [x, y], cond, par⟩) (data' := data') h
  have kdes : ∀ d data', Est.kde (W.withDraw d) ⟨⟨kind, fam⟩, data', cond, p'⟩ = Est.kde W ⟨⟨kind, fam⟩, [x, y], cond, par⟩ :=
    fun d data' => off_kde (e := ⟨⟨kind, fam⟩, [x, y], cond, par⟩) (data' := data') h d
  have ksgs : ∀ data', Est.ksg ⟨⟨kind, fam⟩, data', cond, p'⟩ = Est.ksg ⟨⟨kind, fam⟩, [x, y], cond, par⟩ :=
    fun data' => off_ksg (e := ⟨⟨kind, fam⟩, [x, y], cond, par⟩) (data' := data') h
  have bcs : ∀ data', Est.bclass ⟨⟨kind, fam⟩, data', cond, p'⟩ = Est.bclass ⟨⟨kind, fam⟩, [x, y], cond, par⟩ :=
    fun data' => off_bclass (e := ⟨⟨kind, fam⟩, [x, y], cond, par⟩) (data' := data') h
  unfold Est.miObj at hob
  obtain ⟨b, hb, hob⟩ := Option.bind_eq_some_iff.1 hob
  obtain ⟨o', ho, hob⟩ := Option.bind_eq_some_iff.1 hob
  cases fam with
  | ordinal => exact absurd rfl hf
  | discrete =>
    left
    obtain ⟨xs, hxs, hob⟩ := Option.bind_eq_some_iff.1 hob
    obtain ⟨u, w, hu, hw, rfl⟩ := mapM_pair hxs
    obtain ⟨dd, hdd, hob⟩ := chk_bind (Option.some.inj hob)
    obtain ⟨o, rfl, hl, rfl⟩ := e2t_miInit_pair hdd
    cases hob
    refine ⟨o, u, w, _, ho, hu, hw, hl, rfl, fun d x' y' u' w' hu' hw' hl' => ?_⟩
    simp only [Est.miObj, gets _ _ _ (show "base" ≠ "offset" by decide), zero, hb, pair_mapM hu' hw', bind, Option.bind, miInit_zero hl']
    rfl
  | millerMadow =>
    left
    obtain ⟨xs, hxs, hob⟩ := Option.bind_eq_some_iff.1 hob
    obtain ⟨u, w, hu, hw, rfl⟩ := mapM_pair hxs
    obtain ⟨dd, hdd, hob⟩ := chk_bind (Option.some.inj hob)
    obtain ⟨o, rfl, hl, rfl⟩ := e2t_miInit_pair hdd
    cases hob
    refine ⟨o, u, w, _, ho, hu, hw, hl, rfl, fun d x' y' u' w' hu' hw' hl' => ?_⟩
    simp only [Est.miObj, gets _ _ _ (show "base" ≠ "offset" by decide), zero, hb, pair_mapM hu' hw', bind, Option.bind, miInit_zero hl']
    rfl
  | kernel =>
    right
    have hn := hn (by simp) (by simp)
    obtain ⟨xs, hxs, hob⟩ := Option.bind_eq_some_iff.1 hob
    obtain ⟨u, w, hu, hw, rfl⟩ := mapM_pair hxs
    obtain ⟨nm, hnm, hob⟩ := Option.bind_eq_some_iff.1 hob
    rw [hn] at hnm; cases hnm
    obtain ⟨cfg, hcfg, hob⟩ := Option.bind_eq_some_iff.1 hob
    obtain ⟨dd, hdd, hob⟩ := chk_bind (Option.some.inj hob)
    obtain ⟨o, rfl, hl, rfl⟩ := kmiInit_pair hdd
    cases hob
    refine ⟨o, u, w, _, ho, hu, hw, hl, rfl, fun d x' y' u' w' hu' hw' hl' => ?_⟩
    simp only [Est.miObj, gets _ _ _ (show "base" ≠ "offset" by decide), gets _ _ _ (show "normalize" ≠ "offset" by decide), zero, hb, hn, kdes, hcfg,
      pair_mapM hu' hw', bind, Option.bind, e2t_kmiInit_zero hl']
    rfl
  | metric =>
    right
    have hn := hn (by simp) (by simp)
    obtain ⟨xs, hxs, hob⟩ := Option.bind_eq_some_iff.1 hob
    obtain ⟨u, w, hu, hw, rfl⟩ := mapM_pair hxs
    obtain ⟨nm, hnm, hob⟩ := Option.bind_eq_some_iff.1 hob
    rw [hn] at hnm; cases hnm
    obtain ⟨cfg, hcfg, hob⟩ := Option.bind_eq_some_iff.1 hob
    obtain ⟨v, hv, hob⟩ := Option.bind_eq_some_iff.1 hob
    obtain ⟨dd, hdd, hob⟩ := chk_bind (Option.some.inj hob)
    obtain ⟨o, rfl, hl, rfl⟩ := kmiInit_pair hdd
    obtain ⟨k, hk, hob⟩ := chk_bind hob
    cases hob
    refine ⟨o, u, w, _, ho, hu, hw, hl, rfl, fun d x' y' u' w' hu' hw' hl' => ?_⟩
    simp only [Est.miObj, gets _ _ _ (show "base" ≠ "offset" by decide), gets _ _ _ (show "normalize" ≠ "offset" by decide),
      gets _ _ _ (show "noise_level" ≠ "offset" by decide), zero, hb, hn, ksgs, hcfg, hv,
      pair_mapM hu' hw', bind, Option.bind, e2t_kmiInit_zero hl', Except.bind, hk]
    rfl
  | renyi =>
    right
    have hn := hn (by simp) (by simp)
    obtain ⟨xs, hxs, hob⟩ := Option.bind_eq_some_iff.1 hob
    obtain ⟨u, w, hu, hw, rfl⟩ := mapM_pair hxs
    obtain ⟨nm, hnm, hob⟩ := Option.bind_eq_some_iff.1 hob
    rw [hn] at hnm; cases hnm
    obtain ⟨k, hk, hob⟩ := Option.bind_eq_some_iff.1 hob
    obtain ⟨q, hq, hob⟩ := Option.bind_eq_some_iff.1 hob
    obtain ⟨v, hv, hob⟩ := Option.bind_eq_some_iff.1 hob
    obtain ⟨dd, hdd, hob⟩ := chk_bind (Option.some.inj hob)
    obtain ⟨o, rfl, hl, rfl⟩ := kmiInit_pair hdd
    obtain ⟨c, hc, hob⟩ := chk_bind hob
    cases hob
    refine ⟨o, u, w, _, ho, hu, hw, hl, rfl, fun d x' y' u' w' hu' hw' hl' => ?_⟩
    simp only [Est.miObj, gets _ _ _ (show "base" ≠ "offset" by decide), gets _ _ _ (show "normalize" ≠ "offset" by decide),
      gets _ _ _ (show "noise_level" ≠ "offset" by decide), gets _ _ _ (show "k" ≠ "offset" by decide),
      gets _ _ _ (show (expFam .renyi).2 ≠ "offset" by show "alpha" ≠ "offset"; decide), zero, hb, hn, hk, hq, hv,
      pair_mapM hu' hw', bind, Option.bind, e2t_kmiInit_zero hl', Except.bind, hc]
    rfl
  | tsallis =>
    right
    have hn := hn (by simp) (by simp)
    obtain ⟨xs, hxs, hob⟩ := Option.bind_eq_some_iff.1 hob
    obtain ⟨u, w, hu, hw, rfl⟩ := mapM_pair hxs
    obtain ⟨nm, hnm, hob⟩ := Option.bind_eq_some_iff.1 hob
    rw [hn] at hnm; cases hnm
    obtain ⟨k, hk, hob⟩ := Option.bind_eq_some_iff.1 hob
    obtain ⟨q, hq, hob⟩ := Option.bind_eq_some_iff.1 hob
    obtain ⟨v, hv, hob⟩ := Option.bind_eq_some_iff.1 hob
    obtain ⟨dd, hdd, hob⟩ := chk_bind (Option.some.inj hob)
    obtain ⟨o, rfl, hl, rfl⟩ := kmiInit_pair hdd
    obtain ⟨c, hc, hob⟩ := chk_bind hob
    cases hob
    refine ⟨o, u, w, _, ho, hu, hw, hl, rfl, fun d x' y' u' w' hu' hw' hl' => ?_⟩
    simp only [Est.miObj, gets _ _ _ (show "base" ≠ "offset" by decide), gets _ _ _ (show "normalize" ≠ "offset" by decide),
      gets _ _ _ (show "noise_level" ≠ "offset" by decide), gets _ _ _ (show "k" ≠ "offset" by decide),
      gets _ _ _ (show (expFam .tsallis).2 ≠ "offset" by show "q" ≠ "offset"; decide), zero, hb, hn, hk, hq, hv,
      pair_mapM hu' hw', bind, Option.bind, e2t_kmiInit_zero hl', Except.bind, hc]
    rfl
  | nsb =>
    left
    have hn := hn (by simp) (by simp)
    obtain ⟨nm, hnm, hob⟩ := Option.bind_eq_some_iff.1 hob
    rw [hn] at hnm; cases hnm
    obtain ⟨xs, hxs, hob⟩ := Option.bind_eq_some_iff.1 hob
    obtain ⟨u, w, hu, hw, rfl⟩ := mapM_pair hxs
    obtain ⟨K, hK, hob⟩ := Option.bind_eq_some_iff.1 hob
    simp only [Bool.false_eq_true, if_false] at hob
    obtain ⟨dd, hdd, hob⟩ := chk_bind (Option.some.inj hob)
    obtain ⟨o, rfl, hl, rfl⟩ := e2t_miInit_pair hdd
    obtain ⟨k, hk, hob⟩ := chk_bind hob
    cases hob
    refine ⟨o, u, w, _, ho, hu, hw, hl, rfl, fun d x' y' u' w' hu' hw' hl' => ?_⟩
    simp only [Est.miObj, gets _ _ _ (show "base" ≠ "offset" by decide), gets _ _ _ (show "normalize" ≠ "offset" by decide),
      gets _ _ _ (show "K" ≠ "offset" by decide), zero, hb, hn, hK,
      pair_mapM hu' hw', bind, Option.bind, miInit_zero hl', Bool.false_eq_true, if_false, Except.bind, hk]
    rfl
  | _ =>
    left
    have hn := hn (by simp) (by simp)
    obtain ⟨nm, hnm, hob⟩ := Option.bind_eq_some_iff.1 hob
    rw [hn] at hnm; cases hnm
    obtain ⟨xs, hxs, hob⟩ := Option.bind_eq_some_iff.1 hob
    obtain ⟨u, w, hu, hw, rfl⟩ := mapM_pair hxs
    obtain ⟨c, hc, hob⟩ := Option.bind_eq_some_iff.1 hob
    simp only [Bool.false_eq_true, if_false] at hob
    obtain ⟨dd, hdd, hob⟩ := chk_bind (Option.some.inj hob)
    obtain ⟨o, rfl, hl, rfl⟩ := e2t_miInit_pair hdd
    obtain ⟨k, hk, hob⟩ := chk_bind hob
    cases hob
    refine ⟨o, u, w, _, ho, hu, hw, hl, rfl, fun d x' y' u' w' hu' hw' hl' => ?_⟩
    simp only [Est.miObj, gets _ _ _ (show "base" ≠ "offset" by decide), gets _ _ _ (show "normalize" ≠ "offset" by decide),
      zero, hb, hn, bcs, hc, pair_mapM hu' hw', bind, Option.bind, miInit_zero hl', Bool.false_eq_true, if_false, Except.bind, hk]
    rfl

end

end Verif
