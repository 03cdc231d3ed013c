import Verif.Lemmas.CtorTable

/-!
# C81 — keyword arguments of the estimators

Every estimator accepts exactly its documented keyword arguments: anything else, and a missing required argument, is a
TypeError.  An argument that is given reaches its parameter; one that is not given has its documented default, and
passing the default explicitly is the same call.
-/

namespace Verif

section
variable {D : Type} (b0 : PyVal)

theorem callKw_ne (c : CtorCall D PyVal) {k : String} (h : k ≠ "cond") : callKw c k = c.kw k := by
  unfold callKw; rw [if_neg h]

theorem callKw_cond (c : CtorCall D PyVal) : callKw c "cond" =
    (match c.cond with | .absent => none | .none => some .none | .val _ => some .arr) := by
  unfold callKw; rw [if_pos rfl]; cases c.cond <;> rfl

theorem required_ne_cond (k : Kind) (f : Fam) : "cond" ∉ requiredKw k f := by
  cases k <;> cases f <;> simp [requiredKw]

theorem ctor_chain_iff (c : CtorCall D PyVal) (hk : c.kw "cond" = none) (hc : ctorCompat c.cls c.cond.isVal) :
    ((∃ p, runLayers (ctorLayers b0 c.cls c.cond.isVal) (callKw c) = .ok p) ↔
      (c.cls.kind = .h → c.cond = .absent) ∧ (∀ r ∈ requiredKw c.cls.kind c.cls.fam, c.kw r ≠ none) ∧
        ∀ k, c.kw k ≠ none → k ∈ acceptedKw b0 c.cls) ∧
    ((∃ p, runLayers (ctorLayers b0 c.cls c.cond.isVal) (callKw c) = .ok p) ∨
      runLayers (ctorLayers b0 c.cls c.cond.isVal) (callKw c) = .error .typeError) := by
  obtain ⟨i1, i2⟩ := chain_accepts _ (ctor_ne_nil b0 c.cls c.cond.isVal) (ctor_wf b0 c.cls c.cond.isVal hc) (callKw c)
  refine ⟨i1.trans ?_, i2⟩
  rw [ctor_req]
  have hreq : (∀ r ∈ requiredKw c.cls.kind c.cls.fam, callKw c r ≠ none) ↔
      ∀ r ∈ requiredKw c.cls.kind c.cls.fam, c.kw r ≠ none := by
    constructor <;> intro h r hr <;> have := h r hr
    · rwa [callKw_ne c (fun e => required_ne_cond _ _ (e ▸ hr))] at this
    · rwa [callKw_ne c (fun e => required_ne_cond _ _ (e ▸ hr))]
  rw [hreq]
  constructor
  · rintro ⟨h1, h2⟩
    refine ⟨fun hh => ?_, h1, fun k hkk => ?_⟩
    · by_contra hne
      have : callKw c "cond" ≠ none := by
        rw [callKw_cond]
        cases e : c.cond with
        | absent => exact absurd e hne
        | none => simp
        | val z => simp
      rcases (ctor_acc b0 c.cls _ "cond").1 (h2 _ this) with h | h
      · exact ctor_cond_not_accepted b0 c.cls h
      · exact h.2 hh
    · have hne : k ≠ "cond" := fun e => hkk (e ▸ hk)
      rcases (ctor_acc b0 c.cls _ k).1 (h2 k (by rwa [callKw_ne c hne])) with h | h
      · exact h
      · exact absurd h.1 hne
  · rintro ⟨h0, h1, h2⟩
    refine ⟨h1, fun k hkk => (ctor_acc b0 c.cls _ k).2 ?_⟩
    by_cases hne : k = "cond"
    · subst hne
      refine Or.inr ⟨rfl, fun hh => ?_⟩
      rw [callKw_cond, h0 hh] at hkk
      exact hkk rfl
    · rw [callKw_ne c hne] at hkk
      exact Or.inl (h2 k hkk)

/-- **C81** A class call builds an estimator exactly when it has the right number of series (transfer entropies) and the
right kind of condition, every required keyword argument is given and every keyword argument given is one of the
documented ones. -/
theorem C81_accepted (c : CtorCall D PyVal) (hk : c.kw "cond" = none) :
    (∃ p, ctorParams b0 c = .ok p) ↔
      arityOk c.cls.kind c.data.length ∧ c.cond.okFor c.cls.kind ∧
        (∀ r ∈ requiredKw c.cls.kind c.cls.fam, c.kw r ≠ none) ∧ ∀ k, c.kw k ≠ none → k ∈ acceptedKw b0 c.cls := by
  unfold ctorParams
  by_cases ha : (c.cls.kind = .te ∨ c.cls.kind = .cte) ∧ c.data.length ≠ 2
  · rw [if_pos ha]
    refine ⟨fun ⟨p, hp⟩ => (by cases hp), fun ⟨h, _⟩ => ?_⟩
    exfalso
    rcases ha.1 with e | e <;> rw [e] at h <;> exact ha.2 h
  rw [if_neg ha]
  have harity : arityOk c.cls.kind c.data.length := by
    cases e : c.cls.kind <;> simp only [arityOk, e] at ha ⊢ <;> simpa using ha
  by_cases hc : ctorCompat c.cls c.cond.isVal
  · obtain ⟨i1, i2⟩ := ctor_chain_iff b0 c hk hc
    by_cases hm : (c.cls.kind = .cmi ∨ c.cls.kind = .cte) ∧ c.cond.isVal = false
    · constructor
      · rintro ⟨p, hp⟩
        exfalso
        simp only [bind, Except.bind] at hp
        split at hp
        · cases hp
        · rw [if_pos hm] at hp; cases hp
      · rintro ⟨_, h, _⟩
        exfalso
        obtain ⟨hm1, hm2⟩ := hm
        cases e : c.cond <;> rcases hm1 with e1 | e1 <;> rw [e, e1] at h <;> simp [CondKw.okFor] at h <;>
          rw [e] at hm2 <;> simp [CondKw.isVal] at hm2
    · have hcond : c.cond.okFor c.cls.kind ↔ (c.cls.kind = .h → c.cond = .absent) := by
        unfold ctorCompat at hc
        cases e : c.cond <;> cases e1 : c.cls.kind <;> simp [CondKw.okFor] <;>
          rw [e, e1] at hm <;> simp [CondKw.isVal] at hm <;> rw [e, e1] at hc <;> simp [CondKw.isVal] at hc
      rw [hcond]
      refine Iff.trans ?_ (i1.trans ⟨fun h => ⟨harity, h⟩, fun h => h.2⟩)
      simp only [bind, Except.bind]
      constructor
      · rintro ⟨p, hp⟩
        split at hp
        · cases hp
        · next q hq => exact ⟨q, hq⟩
      · rintro ⟨q, hq⟩
        rw [hq]
        simp only
        rw [if_neg hm]
        exact ⟨q, rfl⟩
  · have hk' : (c.cls.kind = .mi ∨ c.cls.kind = .te) ∧ c.cond.isVal = true := by
      unfold ctorCompat at hc
      simp only [not_or] at hc
      obtain ⟨a, b, d, e⟩ := hc
      refine ⟨?_, by simpa using e⟩
      cases h : c.cls.kind <;> simp_all
    rw [hk'.2, ctor_given_mi b0 c.cls hk'.1]
    refine ⟨fun ⟨p, hp⟩ => (by cases hp), fun ⟨_, h, _⟩ => ?_⟩
    exfalso
    obtain ⟨hm1, hm2⟩ := hk'
    cases e : c.cond <;> rcases hm1 with e1 | e1 <;> rw [e, e1] at h <;> simp [CondKw.okFor] at h <;>
      rw [e] at hm2 <;> simp [CondKw.isVal] at hm2

/-- **C81** An unknown keyword argument, or a missing required one, is a TypeError, whatever else is passed. -/
theorem C81_type_error (c : CtorCall D PyVal) (hk : c.kw "cond" = none)
    (h : (∃ r ∈ requiredKw c.cls.kind c.cls.fam, c.kw r = none) ∨ ∃ k, c.kw k ≠ none ∧ k ∉ acceptedKw b0 c.cls) :
    ctorParams b0 c = .error .typeError := by
  unfold ctorParams
  by_cases ha : (c.cls.kind = .te ∨ c.cls.kind = .cte) ∧ c.data.length ≠ 2
  · rw [if_pos ha]
  rw [if_neg ha]
  by_cases hc : ctorCompat c.cls c.cond.isVal
  · obtain ⟨i1, i2⟩ := ctor_chain_iff b0 c hk hc
    have hno : ¬ ∃ p, runLayers (ctorLayers b0 c.cls c.cond.isVal) (callKw c) = .ok p := by
      rw [i1]
      rintro ⟨_, h1, h2⟩
      rcases h with ⟨r, hr, e⟩ | ⟨k, hkk, hn⟩
      · exact h1 r hr e
      · exact hn (h2 k hkk)
    rw [i2.resolve_left hno]; rfl
  · have hk' : (c.cls.kind = .mi ∨ c.cls.kind = .te) ∧ c.cond.isVal = true := by
      unfold ctorCompat at hc
      simp only [not_or] at hc
      obtain ⟨a, b, d, e⟩ := hc
      refine ⟨?_, by simpa using e⟩
      cases h : c.cls.kind <;> simp_all
    rw [hk'.2, ctor_given_mi b0 c.cls hk'.1]; rfl

/-- **C81** A conditional class without a condition (`cond` left out or `None`) is a ValueError when the other arguments are
right. -/
theorem C81_missing_condition (c : CtorCall D PyVal) (hk : c.kw "cond" = none)
    (hc : c.cls.kind = .cmi ∨ c.cls.kind = .cte) (hn : c.cond = .absent ∨ c.cond = .none)
    (ha : arityOk c.cls.kind c.data.length) (hr : ∀ r ∈ requiredKw c.cls.kind c.cls.fam, c.kw r ≠ none)
    (hu : ∀ k, c.kw k ≠ none → k ∈ acceptedKw b0 c.cls) : ctorParams b0 c = .error .valueError := by
  have hv : c.cond.isVal = false := by rcases hn with e | e <;> rw [e] <;> rfl
  have hcompat : ctorCompat c.cls c.cond.isVal := by
    rcases hc with e | e
    · exact .inr (.inl e)
    · exact .inr (.inr (.inl e))
  have hl : ¬ ((c.cls.kind = .te ∨ c.cls.kind = .cte) ∧ c.data.length ≠ 2) := by
    rintro ⟨h1, h2⟩
    rcases h1 with e | e <;> rw [e] at ha <;> exact h2 ha
  obtain ⟨i1, _⟩ := ctor_chain_iff b0 c hk hcompat
  obtain ⟨p, hp⟩ := i1.2 ⟨fun e => (by rcases hc with e' | e' <;> rw [e] at e' <;> cases e'), hr, hu⟩
  unfold ctorParams
  rw [if_neg hl, hp]
  simp only [bind, Except.bind]
  rw [if_pos ⟨hc, hv⟩]

theorem ctorParams_ok (c : CtorCall D PyVal) (p : Kw) (h : ctorParams b0 c = .ok p) :
    ctorCompat c.cls c.cond.isVal ∧ runLayers (ctorLayers b0 c.cls c.cond.isVal) (callKw c) = .ok p ∧
      ((c.cls.kind = .cmi ∨ c.cls.kind = .cte) → c.cond.isVal = true) := by
  unfold ctorParams at h
  split at h
  · cases h
  · simp only [bind, Except.bind] at h
    split at h
    · cases h
    · next q hq =>
      split at h
      · cases h
      · next hv =>
        cases h
        refine ⟨?_, hq, fun hk => by
          by_contra hb
          exact hv ⟨hk, by simpa using hb⟩⟩
        by_contra hc
        unfold ctorCompat at hc
        simp only [not_or] at hc
        obtain ⟨a, b, d, e⟩ := hc
        have e' : c.cond.isVal = true := by simpa using e
        have hk' : c.cls.kind = .mi ∨ c.cls.kind = .te := by cases h : c.cls.kind <;> simp_all
        rw [e', ctor_given_mi b0 c.cls hk'] at hq
        cases hq

/-- the call `mutual_information(x, y, approach=...)` of a class with the given keyword arguments -/
def exampleCall (k : Kind) (f : Fam) (cond : CondKw (List Int)) (kw : List (String × PyVal)) : CtorCall (List Int) PyVal :=
  { cls := ⟨k, f⟩, data := [[0, 1, 1, 0], [1, 1, 0, 0]], cond := cond, kw := fun j => kw.lookup j }

/-- the Bayesian estimator needs `alpha`; -/
example : ctorParams (.str "e") (exampleCall .mi .bayes .absent []) = .error .typeError :=
  C81_type_error _ _ rfl (.inl ⟨"alpha", by simp [requiredKw, exampleCall], rfl⟩)

example : ∃ p, ctorParams (.str "e") (exampleCall .mi .bayes .absent [("alpha", .num 1), ("seed", .int 5)]) = .ok p := by
  refine (C81_accepted _ _ rfl).2 ⟨trivial, trivial, by simp [requiredKw, exampleCall, List.lookup], fun k hk => ?_⟩
  simp only [exampleCall, List.lookup] at hk
  split at hk
  · next h => simp only [beq_iff_eq] at h; subst h; simp [acceptedKw, requiredKw, exampleCall]
  · split at hk
    · next h => simp only [beq_iff_eq] at h; subst h; simp [acceptedKw, optionalKw, commonKw, exampleCall]
    · exact absurd rfl hk

/-- (finding) `normalize`, documented for mutual information in general, is a TypeError for the plug-in estimator, even
`normalize=False`; -/
example : ctorParams (.str "e") (exampleCall .mi .discrete .absent [("normalize", .bool false)]) = .error .typeError :=
  C81_type_error _ _ rfl (.inr ⟨"normalize", by simp [exampleCall, List.lookup], by
    simp [acceptedKw, requiredKw, optionalKw, ownKw, normalizeKw, commonKw, ignoredKw, exampleCall]⟩)

/-- so is a misspelt keyword of any estimator, -/
example : ctorParams (.str "e") (exampleCall .te .kernel .absent [("bandwith", .num 1)]) = .error .typeError :=
  C81_type_error _ _ rfl (.inr ⟨"bandwith", by simp [exampleCall, List.lookup], by
    simp [acceptedKw, requiredKw, optionalKw, ownKw, normalizeKw, commonKw, ignoredKw, exampleCall]⟩)

/-- and the `seed` of the Kozachenko–Leonenko entropy. -/
example : ctorParams (.str "e") { exampleCall .h .metric .absent [("seed", .int 5)] with data := [[0, 1, 1, 0]] } =
    .error .typeError :=
  C81_type_error _ _ rfl (.inr ⟨"seed", by simp [exampleCall, List.lookup], by
    simp [acceptedKw, requiredKw, optionalKw, ownKw, normalizeKw, commonKw, ignoredKw, exampleCall]⟩)

/-- conditional mutual information with the Bayesian estimator and no condition -/
example : ctorParams (.str "e") (exampleCall .cmi .bayes .none [("alpha", .num 1)]) = .error .valueError := by
  refine C81_missing_condition _ _ rfl (.inl rfl) (.inr rfl) trivial (by simp [requiredKw, exampleCall, List.lookup])
    (fun k hk => ?_)
  simp only [exampleCall, List.lookup] at hk
  split at hk
  · next h => simp only [beq_iff_eq] at h; subst h; simp [acceptedKw, requiredKw, exampleCall]
  · exact absurd rfl hk

/-- **C81** Every parameter of the estimator has the value given, or else its documented default; the required ones have
the value given. -/
theorem C81_values (c : CtorCall D PyVal) (p : Kw) (h : ctorParams b0 c = .ok p) :
    (∀ r ∈ requiredKw c.cls.kind c.cls.fam, p r = c.kw r) ∧
    ∀ o ∈ optionalKw b0 c.cls, p o.1 = some ((c.kw o.1).getD o.2) := by
  obtain ⟨hc, hr, hgiven⟩ := ctorParams_ok b0 c p h
  have hkeep := ctor_keep b0 c.cls c.cond.isVal hgiven
  constructor
  · intro r hrr
    rw [← callKw_ne c (fun e => required_ne_cond _ _ (e ▸ hrr))]
    have := ctor_req b0 c.cls c.cond.isVal
    cases e : ctorLayers b0 c.cls c.cond.isVal with
    | nil => exact absurd e (ctor_ne_nil b0 c.cls _)
    | cons l ls =>
      rw [e] at hr this hkeep
      refine chain_required hkeep hr r ?_
      have : l.req = requiredKw c.cls.kind c.cls.fam := this
      rw [this]; exact hrr
  · intro o ho
    have hne : o.1 ≠ "cond" := fun e => ctor_cond_not_accepted b0 c.cls (by
      unfold acceptedKw
      rw [← e]
      exact List.mem_append.2 (Or.inl (List.mem_append.2 (Or.inr (List.mem_map.2 ⟨o, ho, rfl⟩)))))
    rw [← callKw_ne c hne]
    exact chain_values _ hkeep (callKw c) p hr o.1 o.2 (ctor_opt b0 c.cls _ o ho)

example (p : Kw) (h : ctorParams (.str "e") (exampleCall .mi .metric .none [("k", .int 7)]) = .ok p) :
    p "k" = some (.int 7) ∧ p "ksg_id" = some (.int 1) ∧ p "normalize" = some (.bool false) ∧ p "base" = some (.str "e") :=
  ⟨(C81_values _ _ p h).2 ("k", .int 4) (by simp [optionalKw, ownKw, exampleCall]),
    (C81_values _ _ p h).2 ("ksg_id", .int 1) (by simp [optionalKw, ownKw, exampleCall]),
    (C81_values _ _ p h).2 ("normalize", .bool false) (by simp [optionalKw, normalizeKw, exampleCall]),
    (C81_values _ _ p h).2 ("base", .str "e") (by simp [optionalKw, commonKw, exampleCall])⟩

example : ∃ p, ctorParams (.str "e") (exampleCall .mi .metric .none [("k", .int 7)]) = .ok p := by
  refine (C81_accepted _ _ rfl).2 ⟨trivial, trivial, by simp [requiredKw, exampleCall], fun k hk => ?_⟩
  simp only [exampleCall, List.lookup] at hk
  split at hk
  · next h => simp only [beq_iff_eq] at h; subst h; simp [acceptedKw, optionalKw, ownKw, exampleCall]
  · exact absurd rfl hk

theorem ctorParams_congr {c c' : CtorCall D PyVal} (h1 : c'.cls = c.cls) (h2 : c'.data = c.data)
    (h3 : c'.cond = c.cond) (e : runLayers (ctorLayers b0 c.cls c.cond.isVal) (callKw c') =
      runLayers (ctorLayers b0 c.cls c.cond.isVal) (callKw c)) : ctorParams b0 c' = ctorParams b0 c := by
  unfold ctorParams
  rw [h1, h2, h3, e]

/-- the call with one more keyword argument -/
def CtorCall.withKw (c : CtorCall D PyVal) (k : String) (v : PyVal) : CtorCall D PyVal :=
  { c with kw := fun j => if j = k then some v else c.kw j }

theorem callKw_withKw (c : CtorCall D PyVal) (k : String) (v : PyVal) (h : k ≠ "cond") :
    callKw (c.withKw k v) = (callKw c).set k v := by
  funext j
  unfold callKw CtorCall.withKw Kw.set
  by_cases hj : j = k
  · subst hj; simp [h]
  · by_cases h2 : j = "cond"
    · subst h2; simp [hj]
    · simp [hj, h2]

/-- **C81** Passing the documented default of an optional keyword argument explicitly is the same call as leaving it
out. -/
theorem C81_explicit_default (c : CtorCall D PyVal) (k : String) (d : PyVal) (ho : (k, d) ∈ optionalKw b0 c.cls)
    (hk : c.kw k = none) : ctorParams b0 (c.withKw k d) = ctorParams b0 c := by
  have hne : k ≠ "cond" := fun e => ctor_cond_not_accepted b0 c.cls (by
    unfold acceptedKw
    rw [← e]
    exact List.mem_append.2 (Or.inl (List.mem_append.2 (Or.inr (List.mem_map.2 ⟨(k, d), ho, rfl⟩)))))
  have e : runLayers (ctorLayers b0 c.cls c.cond.isVal) (callKw (c.withKw k d)) =
      runLayers (ctorLayers b0 c.cls c.cond.isVal) (callKw c) := by
    rw [callKw_withKw c k d hne]
    by_cases hc : ctorCompat c.cls c.cond.isVal
    · exact chain_default _ (ctor_wf b0 c.cls _ hc) _ k d (ctor_opt b0 c.cls _ _ ho) (by rw [callKw_ne c hne, hk])
    · have hk' : (c.cls.kind = .mi ∨ c.cls.kind = .te) ∧ c.cond.isVal = true := by
        unfold ctorCompat at hc
        simp only [not_or] at hc
        obtain ⟨a, b, d, e⟩ := hc
        refine ⟨?_, by simpa using e⟩
        cases h : c.cls.kind <;> simp_all
      rw [hk'.2, ctor_given_mi b0 c.cls hk'.1, ctor_given_mi b0 c.cls hk'.1]
  exact ctorParams_congr b0 rfl rfl rfl e

example := C81_explicit_default (.str "e") (exampleCall .te .discrete .absent []) "cond_hist_len" (.int 1)
  (by simp [optionalKw, commonKw, exampleCall]) rfl

/-- **C81** The Rényi and Tsallis (conditional) mutual information accept `step_size` and ignore it. -/
theorem C81_ignored (c : CtorCall D PyVal) (k : String) (v : PyVal) (hk : k ∈ ignoredKw c.cls.kind c.cls.fam) :
    ctorParams b0 (c.withKw k v) = ctorParams b0 c := by
  have hne : k ≠ "cond" := by
    rintro rfl
    revert hk
    cases c.cls.kind <;> cases c.cls.fam <;> simp [ignoredKw]
  have e : runLayers (ctorLayers b0 c.cls c.cond.isVal) (callKw (c.withKw k v)) =
      runLayers (ctorLayers b0 c.cls c.cond.isVal) (callKw c) := by
    rw [callKw_withKw c k v hne]
    exact ctor_ignored b0 c.cls _ k hk _ v
  exact ctorParams_congr b0 rfl rfl rfl e

example := C81_ignored (.str "e") (exampleCall .mi .renyi .absent []) "step_size" (.str "anything") (by simp [ignoredKw, exampleCall])

end

end Verif
