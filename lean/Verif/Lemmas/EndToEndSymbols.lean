import Verif.Lemmas.EndToEnd
import Verif.Model.EndToEndSymbols
import Verif.Spec.EndToEndSymbols
import Verif.Spec.EndToEndSym
import Verif.Spec.EndToEnd

/-!
# Lemmas: float arrays given to the estimators of discrete data
-/

namespace Verif

open Spec

theorem rankIn_strict {pool : List ℝ} {x y : ℝ} (hx : x ∈ pool) (h : x < y) : rankIn pool x < rankIn pool y := by
  classical
  unfold rankIn
  have : (pool.toFinset.filter (· < x)) ⊂ (pool.toFinset.filter (· < y)) := by
    rw [Finset.ssubset_iff_of_subset]
    · exact ⟨x, by simp [hx, h], by simp⟩
    · intro z hz
      simp only [Finset.mem_filter] at hz ⊢
      exact ⟨hz.1, hz.2.trans h⟩
  have := Finset.card_lt_card this
  exact_mod_cast this

theorem rankIn_inj {pool : List ℝ} {x y : ℝ} (hx : x ∈ pool) (hy : y ∈ pool) (h : rankIn pool x = rankIn pool y) : x = y := by
  rcases lt_trichotomy x y with hlt | he | hlt
  · exact absurd h (rankIn_strict hx hlt).ne
  · exact he
  · exact absurd h (rankIn_strict hy hlt).ne'

theorem numbers_of_series {d : PyData} {s : List ℝ} (h : d.toSeries = some s) : d.numbers = s := by
  cases d <;> simp_all [PyData.toSeries, PyData.numbers]

theorem recode_of_series {d : PyData} {s : List ℝ} (h : d.toSeries = some s) (c : ℝ → Int) : d.recode c = some (.ints (s.map c)) := by
  cases d <;> simp_all [PyData.toSeries, PyData.recode]

theorem symb_recode {v : List Int} {d : PyData} (h : Symbols v d) {pool : List ℝ} (hp : ∀ x ∈ d.numbers, x ∈ pool) :
    ∃ v', d.recode (rankIn pool) = some (.ints v') ∧ Relabelled v v' := by
  obtain ⟨f, hf, hs⟩ := h
  refine ⟨(v.map f).map (rankIn pool), recode_of_series hs _, fun x => rankIn pool (f x), fun x hx y hy e => hf x hx y hy ?_, by simp⟩
  rw [numbers_of_series hs] at hp
  exact rankIn_inj (hp _ (List.mem_map_of_mem hx)) (hp _ (List.mem_map_of_mem hy)) e

theorem symb_recodes {cols : List (List Int)} {data : List PyData} (h : List.Forall₂ Symbols cols data) {pool : List ℝ}
    (hp : ∀ d ∈ data, ∀ x ∈ d.numbers, x ∈ pool) :
    ∃ cols', data.mapM (PyData.recode (rankIn pool)) = some (cols'.map .ints) ∧ List.Forall₂ Relabelled cols cols' := by
  induction h with
  | nil => exact ⟨[], rfl, .nil⟩
  | @cons v d vs ds hv hvs ih =>
    obtain ⟨v', e1, r1⟩ := symb_recode hv (hp _ (by simp))
    obtain ⟨cs, e2, r2⟩ := ih (fun d hd => hp d (by simp [hd]))
    exact ⟨v' :: cs, by simp [List.mapM_cons, e1, e2], .cons r1 r2⟩

/-- recoding data without a condition -/
theorem symb_recoded {cls : EstClass} {cols : List (List Int)} {data : List PyData} (h : List.Forall₂ Symbols cols data) :
    ∃ cols', List.Forall₂ Relabelled cols cols' ∧ ∀ p, Est.recoded ⟨cls, data, none, p⟩ = some ⟨cls, cols'.map .ints, none, p⟩ := by
  obtain ⟨cols', e, r⟩ := symb_recodes h (pool := (data.map PyData.numbers).flatten)
    (fun d hd x hx => List.mem_flatten.2 ⟨_, List.mem_map_of_mem hd, hx⟩)
  exact ⟨cols', r, fun p => by simp [Est.recoded, e]⟩

/-- recoding data and a condition -/
theorem symb_recoded_cond {cls : EstClass} {cols : List (List Int)} {data : List PyData} {z : List Int} {dz : PyData}
    (h : List.Forall₂ Symbols cols data) (hz : Symbols z dz) :
    ∃ cols' z', List.Forall₂ Relabelled cols cols' ∧ Relabelled z z' ∧
      ∀ p, Est.recoded ⟨cls, data, some dz, p⟩ = some ⟨cls, cols'.map .ints, some (.ints z'), p⟩ := by
  obtain ⟨cols', e, r⟩ := symb_recodes h (pool := ((data ++ [dz]).map PyData.numbers).flatten)
    (fun d hd x hx => List.mem_flatten.2 ⟨_, List.mem_map_of_mem (List.mem_append_left _ hd), hx⟩)
  obtain ⟨z', ez, rz⟩ := symb_recode hz (pool := ((data ++ [dz]).map PyData.numbers).flatten)
    (fun x hx => List.mem_flatten.2 ⟨dz.numbers, List.mem_map_of_mem (by simp), hx⟩)
  refine ⟨cols', z', r, rz, fun p => ?_⟩
  simp only [Est.recoded, Option.toList_some, bind, Option.bind, e, ez]

theorem mapM_none {α β : Type} {f : α → Option β} {l : List α} {a : α} (ha : a ∈ l) (h : f a = none) : l.mapM f = none := by
  induction l with
  | nil => simp at ha
  | cons x l ih =>
    rw [List.mapM_cons]
    rcases List.mem_cons.1 ha with rfl | ha
    · simp [h]
    · rw [ih ha]; cases f x <;> simp

theorem HasReals.toInts {data : List PyData} (h : HasReals data) : data.mapM PyData.toInts = none := by
  obtain ⟨ys, hy⟩ := h
  exact mapM_none hy rfl

/-! ## The public functions with other data of the same shape -/

theorem symb_ctor {b0 : PyVal} {cls : EstClass} {kw : Kw} {data data' : List PyData} {cond cond' : CondKw PyData}
    (hl : data'.length = data.length) (hc : cond' = cond ∨ (∃ z z', cond = .val z ∧ cond' = .val z')) :
    ctorParams b0 { cls := cls, data := data', cond := cond', kw := kw } = ctorParams b0 { cls := cls, data := data, cond := cond, kw := kw } := by
  have hk : callKw (D := PyData) { cls := cls, data := data', cond := cond', kw := kw } = callKw { cls := cls, data := data, cond := cond, kw := kw } := by
    rcases hc with rfl | ⟨z, z', rfl, rfl⟩ <;> rfl
  have hv : cond'.isVal = cond.isVal := by rcases hc with rfl | ⟨z, z', rfl, rfl⟩ <;> rfl
  simp only [ctorParams, hk, hl, hv]

section
variable {W : World} {a : PyName} {cond : CondKw PyData} {kw : Kw} {f : Fam}

/-- the constructor's parameters, for all data of the same number -/
theorem symb_built (W : World) (c : CtorCall PyData PyVal) (h1 : arityOk c.cls.kind c.data.length)
    (h2 : c.cond.okFor c.cls.kind) (h3 : ∀ r ∈ requiredKw c.cls.kind c.cls.fam, c.kw r ≠ none)
    (h4 : Only (acceptedKw W.b0 c.cls) c.kw) :
    ∃ p, ctorParams W.b0 c = .ok p ∧
      (∀ r ∈ requiredKw c.cls.kind c.cls.fam, p r = c.kw r) ∧
      ∀ o ∈ optionalKw W.b0 c.cls, p o.1 = some (kwOr c.kw o.1 o.2) := by
  have hk : c.kw "cond" = none := by
    by_contra h
    exact ctor_cond_not_accepted W.b0 c.cls (h4 _ h)
  obtain ⟨p, hp⟩ := (C81_accepted W.b0 c hk).2 ⟨h1, h2, h3, h4⟩
  have hv := C81_values W.b0 c p hp
  exact ⟨p, hp, hv.1, hv.2⟩

theorem symb_build {c : CtorCall PyData PyVal} {p : Kw} (h : ctorParams W.b0 c = .ok p) :
    buildEst W c = .ok ⟨c.cls, c.data, c.cond.toOption, p⟩ ∧ buildEst W.symbols c = .ok ⟨c.cls, c.data, c.cond.toOption, p⟩ := by
  constructor
  · simp [buildEst, h, bind, Except.bind, pure, Except.pure]
  · have : ctorParams W.symbols.b0 c = .ok p := h
    simp [buildEst, this, bind, Except.bind, pure, Except.pure]

/-- the evaluation of both calls uses the same parameters -/
def SameResult (W : World) (kw : Kw) (cls : EstClass) (data data' : List PyData) (z z' : Option PyData) : Prop :=
  ∀ p : Kw, (∀ r ∈ requiredKw cls.kind cls.fam, p r = kw r) → (∀ o ∈ optionalKw W.b0 cls, p o.1 = some (kwOr kw o.1 o.2)) →
    Est.result W.symbols ⟨cls, data', z', p⟩ = Est.result W ⟨cls, data, z, p⟩

theorem symb_entropy {data data' : List PyData} (ha : Names W.lower .h a f) (h3 : ∀ r ∈ requiredKw .h f, kw r ≠ none)
    (h4 : Only (acceptedKw W.b0 ⟨.h, f⟩) kw) (hl : data'.length = data.length) (h : SameResult W kw ⟨.h, f⟩ data data' none none) :
    imEntropy W.symbols data' a .absent kw = imEntropy W data a .absent kw := by
  obtain ⟨p, hp, hr, ho⟩ := symb_built W { cls := ⟨.h, f⟩, data := data, cond := .absent, kw := kw } trivial trivial h3 h4
  have hp' := hp
  rw [← symb_ctor (data' := data') hl (.inl rfl)] at hp'
  have e := h p hr ho
  rw [imEntropy, imEntropy, guarded_ok (C46_entropy_guard W.lower data a .absent kw) ha.resolves ha,
    guarded_ok (C46_entropy_guard W.symbols.lower data' a .absent kw) ha.resolves ha]
  simp only [runCall, bind, Except.bind, (symb_build hp).1, (symb_build hp').2]
  exact e

theorem symb_mi {data data' : List PyData} (ha : Names W.lower .mi a f) (hc : cond.isVal = false) (hd : 2 ≤ data.length)
    (h3 : ∀ r ∈ requiredKw .mi f, kw r ≠ none) (h4 : Only (acceptedKw W.b0 ⟨.mi, f⟩) kw) (hl : data'.length = data.length)
    (h : SameResult W kw ⟨.mi, f⟩ data data' none none) :
    imMI W.symbols data' a cond kw = imMI W data a cond kw := by
  obtain ⟨p, hp, hr, ho⟩ := symb_built W { cls := ⟨.mi, f⟩, data := data, cond := cond, kw := kw } trivial
    (okFor_none (.inl rfl) hc) h3 h4
  have hp' := hp
  rw [← symb_ctor (data' := data') hl (.inl rfl)] at hp'
  have e := h p hr ho
  have hg := C46_mi_guard W.lower data a cond kw
  have hg' := C46_mi_guard W.symbols.lower data' a cond kw
  simp only [hc, Bool.false_eq_true, if_false] at hg hg'
  rw [imMI, imMI, guarded_ok hg ⟨ha.resolves, hd⟩ ha, guarded_ok hg' ⟨ha.resolves, hl ▸ hd⟩ ha]
  have : cond.toOption = none := by cases cond <;> simp_all [CondKw.toOption, CondKw.isVal]
  simp only [runCall, bind, Except.bind, (symb_build hp).1, (symb_build hp').2, this]
  exact e

theorem symb_cmi {data data' : List PyData} {z z' : PyData} (ha : Names W.lower .cmi a f) (hd : 2 ≤ data.length)
    (h3 : ∀ r ∈ requiredKw .cmi f, kw r ≠ none) (h4 : Only (acceptedKw W.b0 ⟨.cmi, f⟩) kw) (hl : data'.length = data.length)
    (h : SameResult W kw ⟨.cmi, f⟩ data data' (some z) (some z')) :
    imCMI W.symbols data' a (.val z') kw = imCMI W data a (.val z) kw ∧ imMI W.symbols data' a (.val z') kw = imMI W data a (.val z) kw := by
  obtain ⟨p, hp, hr, ho⟩ := symb_built W { cls := ⟨.cmi, f⟩, data := data, cond := .val z, kw := kw } trivial trivial h3 h4
  have hp' := hp
  rw [← symb_ctor (data' := data') (cond' := .val z') hl (.inr ⟨_, _, rfl, rfl⟩)] at hp'
  have e := h p hr ho
  constructor
  · rw [imCMI, imCMI, guarded_ok (C46_cmi_guard W.lower data a (.val z) kw) ⟨rfl, ha.resolves, hd⟩ ha,
      guarded_ok (C46_cmi_guard W.symbols.lower data' a (.val z') kw) ⟨rfl, ha.resolves, hl ▸ hd⟩ ha]
    simp only [runCall, bind, Except.bind, (symb_build hp).1, (symb_build hp').2]
    exact e
  · have hg := C46_mi_guard W.lower data a (.val z) kw
    have hg' := C46_mi_guard W.symbols.lower data' a (.val z') kw
    simp only [CondKw.isVal, if_true] at hg hg'
    rw [imMI, imMI, guarded_ok hg ⟨ha.resolves, hd⟩ ha, guarded_ok hg' ⟨ha.resolves, hl ▸ hd⟩ ha]
    simp only [runCall, bind, Except.bind, (symb_build hp).1, (symb_build hp').2]
    exact e

theorem symb_te {x y x' y' : PyData} (ha : Names W.lower .te a f) (hc : cond.isVal = false)
    (h3 : ∀ r ∈ requiredKw .te f, kw r ≠ none) (h4 : Only (acceptedKw W.b0 ⟨.te, f⟩) kw)
    (h : SameResult W kw ⟨.te, f⟩ [x, y] [x', y'] none none) :
    imTE W.symbols [x', y'] a cond kw = imTE W [x, y] a cond kw := by
  obtain ⟨p, hp, hr, ho⟩ := symb_built W { cls := ⟨.te, f⟩, data := [x, y], cond := cond, kw := kw } rfl
    (okFor_none (.inr rfl) hc) h3 h4
  have hp' := hp
  rw [← symb_ctor (data := [x, y]) (data' := [x', y']) rfl (.inl rfl)] at hp'
  have e := h p hr ho
  have hg := C46_te_guard W.lower [x, y] a cond kw
  have hg' := C46_te_guard W.symbols.lower [x', y'] a cond kw
  simp only [hc, Bool.false_eq_true, if_false] at hg hg'
  rw [imTE, imTE, guarded_ok hg ⟨ha.resolves, rfl⟩ ha, guarded_ok hg' ⟨ha.resolves, rfl⟩ ha]
  have : cond.toOption = none := by cases cond <;> simp_all [CondKw.toOption, CondKw.isVal]
  simp only [runCall, bind, Except.bind, (symb_build hp).1, (symb_build hp').2, this]
  exact e

theorem symb_cte {x y z x' y' z' : PyData} (ha : Names W.lower .cte a f)
    (h3 : ∀ r ∈ requiredKw .cte f, kw r ≠ none) (h4 : Only (acceptedKw W.b0 ⟨.cte, f⟩) kw)
    (h : SameResult W kw ⟨.cte, f⟩ [x, y] [x', y'] (some z) (some z')) :
    imCTE W.symbols [x', y'] a (.val z') kw = imCTE W [x, y] a (.val z) kw ∧ imTE W.symbols [x', y'] a (.val z') kw = imTE W [x, y] a (.val z) kw := by
  obtain ⟨p, hp, hr, ho⟩ := symb_built W { cls := ⟨.cte, f⟩, data := [x, y], cond := .val z, kw := kw } rfl trivial h3 h4
  have hp' := hp
  rw [← symb_ctor (data := [x, y]) (data' := [x', y']) (cond' := .val z') rfl (.inr ⟨_, _, rfl, rfl⟩)] at hp'
  have e := h p hr ho
  constructor
  · rw [imCTE, imCTE, guarded_ok (C46_cte_guard W.lower [x, y] a (.val z) kw) ⟨rfl, ha.resolves, rfl⟩ ha,
      guarded_ok (C46_cte_guard W.symbols.lower [x', y'] a (.val z') kw) ⟨rfl, ha.resolves, rfl⟩ ha]
    simp only [runCall, bind, Except.bind, (symb_build hp).1, (symb_build hp').2]
    exact e
  · have hg := C46_te_guard W.lower [x, y] a (.val z) kw
    have hg' := C46_te_guard W.symbols.lower [x', y'] a (.val z') kw
    simp only [CondKw.isVal, if_true] at hg hg'
    rw [imTE, imTE, guarded_ok hg ⟨ha.resolves, rfl⟩ ha, guarded_ok hg' ⟨ha.resolves, rfl⟩ ha]
    simp only [runCall, bind, Except.bind, (symb_build hp).1, (symb_build hp').2]
    exact e

end

end Verif
