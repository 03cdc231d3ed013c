import Verif.Lemmas.EndToEndTest4

/-!
# Statistical tests end to end: the objects of conditional mutual information
-/

namespace Verif

open Spec

section
variable {e : Est} {W : World}

theorem cmiInit_pair {α γ : Type} {u w : List α} {z : List γ} {o : Option Int} {dz : List (List α) × List γ}
    (h : cmiInit [u, w] (some z) o = .ok dz) : dz = ([u, w], z) ∧ ∀ u' : List α, u'.length = u.length → cmiInit [u', w] (some z) o = .ok ([u', w], z) := by
  unfold cmiInit at h
  simp only [List.all_nil, Bool.true_eq_false, if_false] at h
  split_ifs at h with h1 h2
  cases h
  refine ⟨rfl, fun u' hu => ?_⟩
  unfold cmiInit
  simp only [List.all_nil, Bool.true_eq_false, if_false]
  rw [if_neg (not_not.2 h1), hu, if_neg h2]

theorem kcmiInit_pair {u w z : KVar} {o : Option Int} {dz : List KVar × KVar}
    (h : kcmiInit [u, w] (some z) o false = .ok dz) : dz = ([u, w], z) ∧ ∀ u' : KVar, u'.len = u.len → kcmiInit [u', w] (some z) o false = .ok ([u', w], z) := by
  unfold kcmiInit at h
  simp only [Bool.false_eq_true, if_false] at h
  split_ifs at h with h1 h2
  cases h
  refine ⟨rfl, fun u' hu => ?_⟩
  unfold kcmiInit
  simp only [Bool.false_eq_true, if_false]
  rw [if_neg (not_not.2 h1), hu, if_neg h2]
  rfl

/-- integer objects of conditional mutual information -/
def CIntsForm (W : World) (e : Est) (x y : PyData) (ob : MIObj) : Prop :=
  ∃ u w F, x.toInts = some u ∧ y.toInts = some w ∧ ob = .ints [u, w] F ∧
    ∀ d x' u', x'.toInts = some u' → u'.length = u.length →
      Est.cmiObj (W.withDraw d) { e with data := [x', y] } = some (.ok (.ints [u', w] F))

/-- array objects of conditional mutual information -/
def CArrsForm (W : World) (e : Est) (x y : PyData) (ob : MIObj) : Prop :=
  ∃ u w F, x.toKVar = some u ∧ y.toKVar = some w ∧ ob = .arrs [u, w] F ∧
    ∀ d x' u', x'.toKVar = some u' → u'.len = u.len →
      Est.cmiObj (W.withDraw d) { e with data := [x', y] } = some (.ok (.arrs [u', w] F))

/-- every approach but the ordinal one stores the two variables and computes from them as from any first variable of the same length -/
theorem cmiObj_form (hf : e.cls.fam ≠ .ordinal) {x y : PyData} (hd : e.data = [x, y]) {ob : MIObj}
    (hn : e.cls.fam ≠ .discrete → e.cls.fam ≠ .millerMadow → e.get "normalize" PyVal.toBool = some false)
    (hob : e.cmiObj W = some (.ok ob)) : CIntsForm W e x y ob ∨ CArrsForm W e x y ob := by
  obtain ⟨⟨kind, fam⟩, data, cond, par⟩ := e
  simp only at hd hf
  subst hd
  have gets : ∀ {α : Type} (k : String) (conv : PyVal → Option α) (data' : List PyData),
      Est.get ⟨⟨kind, fam⟩, data', cond, par⟩ k conv = Est.get ⟨⟨kind, fam⟩, [x, y], cond, par⟩ k conv := fun k conv data' => rfl
  have kdes : ∀ d data', Est.kde (W.withDraw d) ⟨⟨kind, fam⟩, data', cond, par⟩ = Est.kde W ⟨⟨kind, fam⟩, [x, y], cond, par⟩ := fun d data' => rfl
  have ksgs : ∀ data', Est.ksg ⟨⟨kind, fam⟩, data', cond, par⟩ = Est.ksg ⟨⟨kind, fam⟩, [x, y], cond, par⟩ := fun data' => rfl
  have bcs : ∀ data', Est.bclass ⟨⟨kind, fam⟩, data', cond, par⟩ = Est.bclass ⟨⟨kind, fam⟩, [x, y], cond, par⟩ := fun data' => rfl
  unfold Est.cmiObj at hob
  obtain ⟨b, hb, hob⟩ := Option.bind_eq_some_iff.1 hob
  obtain ⟨o', ho, hob⟩ := Option.bind_eq_some_iff.1 hob
  obtain ⟨zd, hz, hob⟩ := Option.bind_eq_some_iff.1 hob
  have hz : cond = some zd := hz
  subst hz
  cases fam with
  | ordinal => exact absurd rfl hf
  | discrete =>
    left
    obtain ⟨xs, hxs, hob⟩ := Option.bind_eq_some_iff.1 hob
    obtain ⟨u, w, hu, hw, rfl⟩ := mapM_pair hxs
    obtain ⟨z, hz', hob⟩ := Option.bind_eq_some_iff.1 hob
    obtain ⟨z', hzr, hob⟩ := chk_bind (Option.some.inj hob)
    obtain ⟨dz, hdz, hob⟩ := chk_bind hob
    obtain ⟨rfl, hin⟩ := cmiInit_pair hdz
    cases hob
    refine ⟨u, w, _, hu, hw, rfl, fun d x' u' hu' hl' => ?_⟩
    simp only [Est.cmiObj, gets _ _ [x', y], hb, ho, hz', hzr, pair_mapM hu' hw, bind, Option.bind, hin u' hl', Except.bind]
    rfl
  | millerMadow =>
    left
    obtain ⟨xs, hxs, hob⟩ := Option.bind_eq_some_iff.1 hob
    obtain ⟨u, w, hu, hw, rfl⟩ := mapM_pair hxs
    obtain ⟨z, hz', hob⟩ := Option.bind_eq_some_iff.1 hob
    obtain ⟨z', hzr, hob⟩ := chk_bind (Option.some.inj hob)
    obtain ⟨dz, hdz, hob⟩ := chk_bind hob
    obtain ⟨rfl, hin⟩ := cmiInit_pair hdz
    cases hob
    refine ⟨u, w, _, hu, hw, rfl, fun d x' u' hu' hl' => ?_⟩
    simp only [Est.cmiObj, gets _ _ [x', y], hb, ho, hz', hzr, pair_mapM hu' hw, bind, Option.bind, hin u' hl', Except.bind]
    rfl
  | kernel =>
    right
    have hn := hn (by simp) (by simp)
    obtain ⟨xs, hxs, hob⟩ := Option.bind_eq_some_iff.1 hob
    obtain ⟨u, w, hu, hw, rfl⟩ := mapM_pair hxs
    obtain ⟨z, hz', hob⟩ := Option.bind_eq_some_iff.1 hob
    obtain ⟨nm, hnm, hob⟩ := Option.bind_eq_some_iff.1 hob
    rw [hn] at hnm; cases hnm
    obtain ⟨cfg, hcfg, hob⟩ := Option.bind_eq_some_iff.1 hob
    obtain ⟨dz, hdz, hob⟩ := chk_bind (Option.some.inj hob)
    obtain ⟨rfl, hin⟩ := kcmiInit_pair hdz
    cases hob
    refine ⟨u, w, _, hu, hw, rfl, fun d x' u' hu' hl' => ?_⟩
    simp only [Est.cmiObj, gets _ _ [x', y], hb, ho, hz', hn, kdes, hcfg, pair_mapM hu' hw, bind, Option.bind, hin u' hl', Except.bind]
    rfl
  | metric =>
    right
    have hn := hn (by simp) (by simp)
    obtain ⟨xs, hxs, hob⟩ := Option.bind_eq_some_iff.1 hob
    obtain ⟨u, w, hu, hw, rfl⟩ := mapM_pair hxs
    obtain ⟨z, hz', hob⟩ := Option.bind_eq_some_iff.1 hob
    obtain ⟨nm, hnm, hob⟩ := Option.bind_eq_some_iff.1 hob
    rw [hn] at hnm; cases hnm
    obtain ⟨cfg, hcfg, hob⟩ := Option.bind_eq_some_iff.1 hob
    obtain ⟨v, hv, hob⟩ := Option.bind_eq_some_iff.1 hob
    obtain ⟨dz, hdz, hob⟩ := chk_bind (Option.some.inj hob)
    obtain ⟨rfl, hin⟩ := kcmiInit_pair hdz
    obtain ⟨kk, hkk, hob⟩ := chk_bind hob
    cases hob
    refine ⟨u, w, _, hu, hw, rfl, fun d x' u' hu' hl' => ?_⟩
    simp only [Est.cmiObj, gets _ _ [x', y], hb, ho, hz', hn, ksgs [x', y], hcfg, hv, hkk, pair_mapM hu' hw, bind, Option.bind, hin u' hl', Except.bind]
    rfl
  | renyi =>
    right
    have hn := hn (by simp) (by simp)
    obtain ⟨xs, hxs, hob⟩ := Option.bind_eq_some_iff.1 hob
    obtain ⟨u, w, hu, hw, rfl⟩ := mapM_pair hxs
    obtain ⟨z, hz', hob⟩ := Option.bind_eq_some_iff.1 hob
    obtain ⟨nm, hnm, hob⟩ := Option.bind_eq_some_iff.1 hob
    rw [hn] at hnm; cases hnm
    obtain ⟨k, hk, hob⟩ := Option.bind_eq_some_iff.1 hob
    obtain ⟨q, hq, hob⟩ := Option.bind_eq_some_iff.1 hob
    obtain ⟨v, hv, hob⟩ := Option.bind_eq_some_iff.1 hob
    obtain ⟨dz, hdz, hob⟩ := chk_bind (Option.some.inj hob)
    obtain ⟨rfl, hin⟩ := kcmiInit_pair hdz
    obtain ⟨kk, hkk, hob⟩ := chk_bind hob
    cases hob
    refine ⟨u, w, _, hu, hw, rfl, fun d x' u' hu' hl' => ?_⟩
    simp only [Est.cmiObj, gets _ _ [x', y], hb, ho, hz', hn, hk, hq, hv, hkk, pair_mapM hu' hw, bind, Option.bind, hin u' hl', Except.bind]
    rfl
  | tsallis =>
    right
    have hn := hn (by simp) (by simp)
    obtain ⟨xs, hxs, hob⟩ := Option.bind_eq_some_iff.1 hob
    obtain ⟨u, w, hu, hw, rfl⟩ := mapM_pair hxs
    obtain ⟨z, hz', hob⟩ := Option.bind_eq_some_iff.1 hob
    obtain ⟨nm, hnm, hob⟩ := Option.bind_eq_some_iff.1 hob
    rw [hn] at hnm; cases hnm
    obtain ⟨k, hk, hob⟩ := Option.bind_eq_some_iff.1 hob
    obtain ⟨q, hq, hob⟩ := Option.bind_eq_some_iff.1 hob
    obtain ⟨v, hv, hob⟩ := Option.bind_eq_some_iff.1 hob
    obtain ⟨dz, hdz, hob⟩ := chk_bind (Option.some.inj hob)
    obtain ⟨rfl, hin⟩ := kcmiInit_pair hdz
    obtain ⟨kk, hkk, hob⟩ := chk_bind hob
    cases hob
    refine ⟨u, w, _, hu, hw, rfl, fun d x' u' hu' hl' => ?_⟩
    simp only [Est.cmiObj, gets _ _ [x', y], hb, ho, hz', hn, hk, hq, hv, hkk, pair_mapM hu' hw, bind, Option.bind, hin u' hl', Except.bind]
    rfl
  | nsb =>
    left
    have hn := hn (by simp) (by simp)
    obtain ⟨nm, hnm, hob⟩ := Option.bind_eq_some_iff.1 hob
    rw [hn] at hnm; cases hnm
    obtain ⟨xs, hxs, hob⟩ := Option.bind_eq_some_iff.1 hob
    obtain ⟨u, w, hu, hw, rfl⟩ := mapM_pair hxs
    obtain ⟨z, hz', hob⟩ := Option.bind_eq_some_iff.1 hob
    obtain ⟨K, hK, hob⟩ := Option.bind_eq_some_iff.1 hob
    simp only [Bool.false_eq_true, if_false] at hob
    obtain ⟨dz, hdz, hob⟩ := chk_bind (Option.some.inj hob)
    obtain ⟨rfl, hin⟩ := cmiInit_pair hdz
    obtain ⟨kk, hkk, hob⟩ := chk_bind hob
    cases hob
    refine ⟨u, w, _, hu, hw, rfl, fun d x' u' hu' hl' => ?_⟩
    simp only [Est.cmiObj, gets _ _ [x', y], hb, ho, hz', hn, hK, Bool.false_eq_true, if_false, hkk, pair_mapM hu' hw, bind, Option.bind, hin u' hl', Except.bind]
    rfl
  | _ =>
    left
    have hn := hn (by simp) (by simp)
    obtain ⟨nm, hnm, hob⟩ := Option.bind_eq_some_iff.1 hob
    rw [hn] at hnm; cases hnm
    obtain ⟨xs, hxs, hob⟩ := Option.bind_eq_some_iff.1 hob
    obtain ⟨u, w, hu, hw, rfl⟩ := mapM_pair hxs
    obtain ⟨z, hz', hob⟩ := Option.bind_eq_some_iff.1 hob
    obtain ⟨c, hc, hob⟩ := Option.bind_eq_some_iff.1 hob
    simp only [Bool.false_eq_true, if_false] at hob
    obtain ⟨dz, hdz, hob⟩ := chk_bind (Option.some.inj hob)
    obtain ⟨rfl, hin⟩ := cmiInit_pair hdz
    obtain ⟨kk, hkk, hob⟩ := chk_bind hob
    cases hob
    refine ⟨u, w, _, hu, hw, rfl, fun d x' u' hu' hl' => ?_⟩
    simp only [Est.cmiObj, gets _ _ [x', y], hb, ho, hz', hn, bcs [x', y], hc, Bool.false_eq_true, if_false, hkk, pair_mapM hu' hw, bind, Option.bind, hin u' hl', Except.bind]
    rfl

end

end Verif
