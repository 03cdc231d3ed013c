import Verif.Model.EndToEnd
import Verif.Props.Ctor
import Verif.Props.Dispatch2

/-!
# Lemmas for the end-to-end theorems: what a public call evaluates
-/

namespace Verif

/-- only keyword arguments from the list are given -/
def Only (names : List String) (kw : Kw) : Prop := ∀ k, kw k ≠ none → k ∈ names

/-- the value given for a keyword argument, or else the default `d` -/
def kwOr (kw : Kw) (k : String) (d : PyVal) : PyVal := (kw k).getD d

theorem built (W : World) (c : CtorCall PyData PyVal) (h1 : arityOk c.cls.kind c.data.length)
    (h2 : c.cond.okFor c.cls.kind) (h3 : ∀ r ∈ requiredKw c.cls.kind c.cls.fam, c.kw r ≠ none)
    (h4 : Only (acceptedKw W.b0 c.cls) c.kw) :
    ∃ p, buildEst W c = .ok ⟨c.cls, c.data, c.cond.toOption, p⟩ ∧
      (∀ r ∈ requiredKw c.cls.kind c.cls.fam, p r = c.kw r) ∧
      ∀ o ∈ optionalKw W.b0 c.cls, p o.1 = some (kwOr c.kw o.1 o.2) := by
  have hk : c.kw "cond" = none := by
    by_contra h
    exact ctor_cond_not_accepted W.b0 c.cls (h4 _ h)
  obtain ⟨p, hp⟩ := (C81_accepted W.b0 c hk).2 ⟨h1, h2, h3, h4⟩
  have hv := C81_values W.b0 c p hp
  exact ⟨p, by simp [buildEst, hp, bind, Except.bind, pure, Except.pure], hv.1, hv.2⟩

section
variable (W : World) (data : List PyData) (a : PyName) (cond : CondKw PyData) (kw : Kw)

theorem Names.resolves {L : PyLower} {k : Kind} {a : PyName} {f : Fam} (h : Names L k a f) : Resolves L k a := by
  obtain ⟨s, e, hs⟩ := h; exact ⟨s, f, e, hs⟩

theorem guarded_ok {L : PyLower} {a : PyName} {r : Except Exc (CtorCall PyData PyVal)} {k : Kind} {data : List PyData}
    {cond : CondKw PyData} {kw : Kw} {P : Prop} (h : Guarded L a r k data cond kw P) (hP : P) {f : Fam} (hf : Names L k a f) :
    r = .ok { cls := ⟨k, f⟩, data := data, cond := cond, kw := kw } := by
  rcases h with ⟨_, g, hg, e⟩ | ⟨h, _⟩
  · rw [e, hg.unique hf]
  · exact absurd hP h

variable {f : Fam}

theorem im_entropy_eval (ha : Names W.lower .h a f) (h3 : ∀ r ∈ requiredKw .h f, kw r ≠ none)
    (h4 : Only (acceptedKw W.b0 ⟨.h, f⟩) kw) :
    ∃ p, imEntropy W data a .absent kw = Est.result W ⟨⟨.h, f⟩, data, none, p⟩ ∧ (∀ r ∈ requiredKw .h f, p r = kw r) ∧
      ∀ o ∈ optionalKw W.b0 ⟨.h, f⟩, p o.1 = some (kwOr kw o.1 o.2) := by
  obtain ⟨p, hp, hr, ho⟩ := built W { cls := ⟨.h, f⟩, data := data, cond := .absent, kw := kw } trivial trivial h3 h4
  refine ⟨p, ?_, hr, ho⟩
  rw [imEntropy, guarded_ok (C46_entropy_guard W.lower data a .absent kw) ha.resolves ha]
  simp only [runCall, bind, Except.bind, hp]; rfl

theorem im_cross_eval (ha : Names W.lower .h a f) (hd : 2 ≤ data.length) (h3 : ∀ r ∈ requiredKw .h f, kw r ≠ none)
    (h4 : Only (acceptedKw W.b0 ⟨.h, f⟩) kw) :
    ∃ p, imCrossEntropy W data a .absent kw = Est.result W ⟨⟨.h, f⟩, data, none, p⟩ ∧ (∀ r ∈ requiredKw .h f, p r = kw r) ∧
      ∀ o ∈ optionalKw W.b0 ⟨.h, f⟩, p o.1 = some (kwOr kw o.1 o.2) := by
  obtain ⟨p, hp, hr, ho⟩ := built W { cls := ⟨.h, f⟩, data := data, cond := .absent, kw := kw } trivial trivial h3 h4
  refine ⟨p, ?_, hr, ho⟩
  rw [imCrossEntropy, guarded_ok (C46_cross_entropy_guard W.lower data a .absent kw) ⟨ha.resolves, hd⟩ ha]
  simp only [runCall, bind, Except.bind, hp]; rfl

theorem okFor_none {k : Kind} (hk : k = .mi ∨ k = .te) {cond : CondKw PyData} (h : cond.isVal = false) : cond.okFor k := by
  rcases hk with rfl | rfl <;> cases cond <;> simp_all [CondKw.okFor, CondKw.isVal]

theorem im_mi_eval (ha : Names W.lower .mi a f) (hc : cond.isVal = false) (hd : 2 ≤ data.length)
    (h3 : ∀ r ∈ requiredKw .mi f, kw r ≠ none) (h4 : Only (acceptedKw W.b0 ⟨.mi, f⟩) kw) :
    ∃ p, imMI W data a cond kw = Est.result W ⟨⟨.mi, f⟩, data, none, p⟩ ∧ (∀ r ∈ requiredKw .mi f, p r = kw r) ∧
      ∀ o ∈ optionalKw W.b0 ⟨.mi, f⟩, p o.1 = some (kwOr kw o.1 o.2) := by
  obtain ⟨p, hp, hr, ho⟩ := built W { cls := ⟨.mi, f⟩, data := data, cond := cond, kw := kw } trivial
    (okFor_none (.inl rfl) hc) h3 h4
  refine ⟨p, ?_, hr, ho⟩
  have hg := C46_mi_guard W.lower data a cond kw
  simp only [hc, Bool.false_eq_true, if_false] at hg
  rw [imMI, guarded_ok hg ⟨ha.resolves, hd⟩ ha]
  have : cond.toOption = none := by cases cond <;> simp_all [CondKw.toOption, CondKw.isVal]
  simp only [runCall, bind, Except.bind, hp, this]

theorem im_cmi_eval (z : PyData) (ha : Names W.lower .cmi a f) (hd : 2 ≤ data.length)
    (h3 : ∀ r ∈ requiredKw .cmi f, kw r ≠ none) (h4 : Only (acceptedKw W.b0 ⟨.cmi, f⟩) kw) :
    ∃ p, imCMI W data a (.val z) kw = Est.result W ⟨⟨.cmi, f⟩, data, some z, p⟩ ∧
      imMI W data a (.val z) kw = Est.result W ⟨⟨.cmi, f⟩, data, some z, p⟩ ∧ (∀ r ∈ requiredKw .cmi f, p r = kw r) ∧
      ∀ o ∈ optionalKw W.b0 ⟨.cmi, f⟩, p o.1 = some (kwOr kw o.1 o.2) := by
  obtain ⟨p, hp, hr, ho⟩ := built W { cls := ⟨.cmi, f⟩, data := data, cond := .val z, kw := kw } trivial trivial h3 h4
  refine ⟨p, ?_, ?_, hr, ho⟩
  · rw [imCMI, guarded_ok (C46_cmi_guard W.lower data a (.val z) kw) ⟨rfl, ha.resolves, hd⟩ ha]
    simp only [runCall, bind, Except.bind, hp]; rfl
  · have hg := C46_mi_guard W.lower data a (.val z) kw
    simp only [CondKw.isVal, if_true] at hg
    rw [imMI, guarded_ok hg ⟨ha.resolves, hd⟩ ha]
    simp only [runCall, bind, Except.bind, hp]; rfl

theorem im_te_eval (x y : PyData) (ha : Names W.lower .te a f) (hc : cond.isVal = false)
    (h3 : ∀ r ∈ requiredKw .te f, kw r ≠ none) (h4 : Only (acceptedKw W.b0 ⟨.te, f⟩) kw) :
    ∃ p, imTE W [x, y] a cond kw = Est.result W ⟨⟨.te, f⟩, [x, y], none, p⟩ ∧ (∀ r ∈ requiredKw .te f, p r = kw r) ∧
      ∀ o ∈ optionalKw W.b0 ⟨.te, f⟩, p o.1 = some (kwOr kw o.1 o.2) := by
  obtain ⟨p, hp, hr, ho⟩ := built W { cls := ⟨.te, f⟩, data := [x, y], cond := cond, kw := kw } rfl
    (okFor_none (.inr rfl) hc) h3 h4
  refine ⟨p, ?_, hr, ho⟩
  have hg := C46_te_guard W.lower [x, y] a cond kw
  simp only [hc, Bool.false_eq_true, if_false] at hg
  rw [imTE, guarded_ok hg ⟨ha.resolves, rfl⟩ ha]
  have : cond.toOption = none := by cases cond <;> simp_all [CondKw.toOption, CondKw.isVal]
  simp only [runCall, bind, Except.bind, hp, this]

theorem im_cte_eval (x y z : PyData) (ha : Names W.lower .cte a f)
    (h3 : ∀ r ∈ requiredKw .cte f, kw r ≠ none) (h4 : Only (acceptedKw W.b0 ⟨.cte, f⟩) kw) :
    ∃ p, imCTE W [x, y] a (.val z) kw = Est.result W ⟨⟨.cte, f⟩, [x, y], some z, p⟩ ∧
      imTE W [x, y] a (.val z) kw = Est.result W ⟨⟨.cte, f⟩, [x, y], some z, p⟩ ∧ (∀ r ∈ requiredKw .cte f, p r = kw r) ∧
      ∀ o ∈ optionalKw W.b0 ⟨.cte, f⟩, p o.1 = some (kwOr kw o.1 o.2) := by
  obtain ⟨p, hp, hr, ho⟩ := built W { cls := ⟨.cte, f⟩, data := [x, y], cond := .val z, kw := kw } rfl trivial h3 h4
  refine ⟨p, ?_, ?_, hr, ho⟩
  · rw [imCTE, guarded_ok (C46_cte_guard W.lower [x, y] a (.val z) kw) ⟨rfl, ha.resolves, rfl⟩ ha]
    simp only [runCall, bind, Except.bind, hp]; rfl
  · have hg := C46_te_guard W.lower [x, y] a (.val z) kw
    simp only [CondKw.isVal, if_true] at hg
    rw [imTE, guarded_ok hg ⟨ha.resolves, rfl⟩ ha]
    simp only [runCall, bind, Except.bind, hp]; rfl

end

end Verif
