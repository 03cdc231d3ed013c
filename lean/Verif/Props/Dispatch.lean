import Verif.Spec.Names

/-! # C45, C46: name dispatch and arity guards of the functional interface -/

namespace Verif

open Spec

/-- the dictionary of a measure -/
def tableOf : Kind → ClassTable
  | .h => entropyTable
  | .mi => miTable
  | .cmi => cmiTable
  | .te => teTable
  | .cte => cteTable

theorem lookup_of_mem {T : ClassTable} (hnd : (T.map Prod.fst).Nodup) {s : String} {c : EstClass}
    (h : (s, c) ∈ T) : T.lookup s = some c := by
  induction T with
  | nil => simp at h
  | cons p T ih =>
    obtain ⟨s', c'⟩ := p
    rw [List.map_cons, List.nodup_cons] at hnd
    rw [List.lookup_cons]
    rcases List.mem_cons.1 h with h | h
    · cases h; simp
    · have : s ≠ s' := fun e => hnd.1 (by
        have := List.mem_map_of_mem (f := Prod.fst) h
        rw [e] at this; exact this)
      rw [show (s == s') = false from by simpa using this]
      exact ih hnd.2 h

theorem mem_of_lookup {T : ClassTable} {s : String} {c : EstClass} (h : T.lookup s = some c) : (s, c) ∈ T := by
  induction T with
  | nil => simp at h
  | cons p T ih =>
    obtain ⟨s', c'⟩ := p
    rw [List.lookup_cons] at h
    cases e : (s == s') with
    | true => rw [e] at h; simp at h e; subst h; subst e; exact List.mem_cons_self
    | false => rw [e] at h; exact List.mem_cons_of_mem _ (ih h)

theorem table_sound (k : Kind) : ∀ p ∈ tableOf k, p.2.kind = k ∧ p.1 ∈ approachNames k p.2.fam := by
  cases k <;> decide

theorem table_complete (k : Kind) (f : Fam) : ∀ s ∈ approachNames k f, (s, EstClass.mk k f) ∈ tableOf k := by
  cases k <;> cases f <;> decide

theorem table_nodup (k : Kind) : ((tableOf k).map Prod.fst).Nodup := by
  cases k <;> decide

theorem lookup_iff (k : Kind) (s : String) (c : EstClass) :
    (tableOf k).lookup s = some c ↔ c.kind = k ∧ s ∈ approachNames k c.fam := by
  constructor
  · intro h; exact table_sound k _ (mem_of_lookup h)
  · rintro ⟨rfl, h⟩; exact lookup_of_mem (table_nodup _) (table_complete _ _ _ h)

/-- **C45** An approach is resolved exactly when its lower-cased name is documented for the measure, to
the class of that measure and family; everything else (unknown, `None`, not a string) is a ValueError. -/
theorem C45_approach_resolution (L : PyLower) (k : Kind) (a : PyName) :
    (∀ c, getEstimator L (tableOf k) a = .ok c ↔
      c.kind = k ∧ ∃ s, a = .str s ∧ L.run s ∈ approachNames k c.fam) ∧
    (getEstimator L (tableOf k) a = .error .valueError ↔
      ¬ ∃ s f, a = .str s ∧ L.run s ∈ approachNames k f) := by
  cases a with
  | none => simp [getEstimator]
  | other => simp [getEstimator]
  | str s =>
    have hge : getEstimator L (tableOf k) (.str s) = match (tableOf k).lookup (L.run s) with
      | some c => .ok c
      | none => .error .valueError := rfl
    rw [hge]
    cases hl : (tableOf k).lookup (L.run s) with
    | some c =>
      simp only
      obtain ⟨h1, h2⟩ := (lookup_iff k _ c).1 hl
      constructor
      · intro c'
        simp only [Except.ok.injEq]
        constructor
        · rintro rfl; exact ⟨h1, s, rfl, h2⟩
        · rintro ⟨h3, s', e, h4⟩
          cases e
          have := (lookup_iff k _ c').2 ⟨h3, h4⟩
          rw [hl] at this; exact Option.some.inj this
      · simp only [reduceCtorEq, false_iff, not_not]
        exact ⟨s, c.fam, rfl, h2⟩
    | none =>
      simp only
      have hno : ∀ f, L.run s ∉ approachNames k f := by
        intro f hf
        have := (lookup_iff k (L.run s) ⟨k, f⟩).2 ⟨rfl, hf⟩
        rw [hl] at this; cases this
      constructor
      · intro c'
        simp only [reduceCtorEq, false_iff]
        rintro ⟨h3, s', e, h4⟩
        cases e; exact hno _ h4
      · simp only [true_iff]
        rintro ⟨s', f, e, h⟩
        cases e; exact hno f h

/-- a case variant of an ASCII name is lower-cased to that name -/
theorem lower_variant (L : PyLower) {s name : String} (hn : ∀ c ∈ name.toList, c.toNat < 128)
    (h : CaseVariant s name) : L.run s = name := by
  have hs : ∀ c ∈ s.toList, c.toNat < 128 := by
    intro c hc
    have : c.toLower.toNat < 128 := hn _ (by rw [← h]; exact List.mem_map_of_mem hc)
    unfold Char.toLower at this
    split at this
    · next h' =>
      have h2 : c.val ≤ 90 := h'.2
      have h3 : c.val.toNat ≤ 90 := by simpa using (UInt32.le_iff_toNat_le.1 h2)
      show c.val.toNat < 128
      omega
    · exact this
  have := L.ascii s hs
  rw [h] at this
  exact String.toList_inj.1 this

theorem names_ascii (k : Kind) (f : Fam) : ∀ s ∈ approachNames k f, ∀ c ∈ s.toList, c.toNat < 128 := by
  cases k <;> cases f <;> decide

theorem measureNames_ascii (k : Kind) : ∀ s ∈ measureNames k, ∀ c ∈ s.toList, c.toNat < 128 := by
  cases k <;> decide

theorem getEstimatorClass_names (L : PyLower) (k : Kind) {m : String} (hm : L.run m ∈ measureNames k)
    (a : PyName) : getEstimatorClass L (.str m) a = getEstimator L (tableOf k) a := by
  unfold getEstimatorClass
  cases k <;> simp only [measureNames, List.mem_cons, List.not_mem_nil, or_false] at hm <;>
    rcases hm with h | h <;> simp [h, tableOf]

/-- **C45** Every documented measure name, every documented approach name, in any capitalisation, reaches
the class of that measure and approach; all aliases reach the same class. -/
theorem C45_every_alias_and_case (L : PyLower) (k : Kind) (f : Fam) (mname aname m a : String)
    (hm : mname ∈ measureNames k) (ha : aname ∈ approachNames k f) (hm' : CaseVariant m mname)
    (ha' : CaseVariant a aname) :
    getEstimatorClass L (.str m) (.str a) = .ok ⟨k, f⟩ := by
  have e1 := lower_variant L (measureNames_ascii k _ hm) hm'
  have e2 := lower_variant L (names_ascii k f _ ha) ha'
  rw [getEstimatorClass_names L k (by rw [e1]; exact hm)]
  exact ((C45_approach_resolution L k _).1 _).2 ⟨rfl, a, rfl, by rw [e2]; exact ha⟩

/-- **C45** The result depends on the names only through their lower-case form. -/
theorem C45_case_insensitive (L : PyLower) (m m' a a' : String) (hm : L.run m = L.run m')
    (ha : L.run a = L.run a') :
    getEstimatorClass L (.str m) (.str a) = getEstimatorClass L (.str m') (.str a') := by
  simp only [getEstimatorClass, getEstimator, hm, ha]

/-- **C45** `get_estimator_class` succeeds exactly on documented names; `None` and unknown names are a
ValueError, a measure that is not a string an AttributeError. -/
theorem C45_class_lookup_exact (L : PyLower) (m a : PyName) (c : EstClass) :
    (getEstimatorClass L m a = .ok c ↔ ∃ ms as, m = .str ms ∧ a = .str as ∧
      L.run ms ∈ measureNames c.kind ∧ L.run as ∈ approachNames c.kind c.fam) ∧
    (getEstimatorClass L m a = .error .attributeError ↔ m = .other) ∧
    ((¬ ∃ k ms as f, m = .str ms ∧ a = .str as ∧
      L.run ms ∈ measureNames k ∧ L.run as ∈ approachNames k f) → m ≠ .other →
      getEstimatorClass L m a = .error .valueError) := by
  cases m with
  | none => simp [getEstimatorClass]
  | other => simp [getEstimatorClass]
  | str ms =>
    by_cases hk : ∃ k, L.run ms ∈ measureNames k
    · obtain ⟨k, hk⟩ := hk
      have huniq : ∀ k', L.run ms ∈ measureNames k' → k' = k := by
        intro k' h'
        cases k <;> cases k' <;> first
          | rfl
          | (simp only [measureNames, List.mem_cons, List.not_mem_nil, or_false] at hk h'
             rcases hk with h | h <;> rw [h] at h' <;> exact absurd h' (by decide))
      rw [getEstimatorClass_names L k hk]
      obtain ⟨h1, h2⟩ := C45_approach_resolution L k a
      refine ⟨?_, ?_, ?_⟩
      · rw [h1]
        constructor
        · rintro ⟨rfl, s, rfl, h⟩; exact ⟨ms, s, rfl, rfl, hk, h⟩
        · rintro ⟨ms', as, e, rfl, h3, h4⟩
          cases e
          have := huniq _ h3
          exact ⟨this, as, rfl, by rw [← this]; exact h4⟩
      · simp only [reduceCtorEq, iff_false]
        unfold getEstimator
        cases a with
        | none => simp
        | other => simp
        | str s => simp only; split <;> simp
      · intro hn _
        rw [h2]
        rintro ⟨s, f, rfl, h⟩
        exact hn ⟨k, ms, s, f, rfl, rfl, hk, h⟩
    · have hno : ∀ k, L.run ms ∉ measureNames k := fun k h => hk ⟨k, h⟩
      have he : getEstimatorClass L (.str ms) a = .error .valueError := by
        unfold getEstimatorClass
        have h1 : ¬ L.run ms ∈ ["entropy", "h"] := hno .h
        have h2 : ¬ L.run ms ∈ ["mutual_information", "mi"] := hno .mi
        have h3 : ¬ L.run ms ∈ ["conditional_mutual_information", "cmi"] := hno .cmi
        have h4 : ¬ L.run ms ∈ ["transfer_entropy", "te"] := hno .te
        have h5 : ¬ L.run ms ∈ ["conditional_transfer_entropy", "cte"] := hno .cte
        simp only
        rw [if_neg h1, if_neg h2, if_neg h3, if_neg h4, if_neg h5]
      rw [he]
      refine ⟨?_, by simp, by simp⟩
      simp only [reduceCtorEq, false_iff]
      rintro ⟨ms', as, e, _, h, _⟩
      cases e; exact hno _ h

variable {D V E R : Type}

/-- **C45** A condition selects the conditional estimator of the same approach, its absence (or `None`)
the unconditional one; the arguments are passed on unchanged. -/
theorem C45_condition_selects (L : PyLower) (data : List D) (f : Fam) (aname a : String)
    (cond : CondKw D) (kw : String → Option V) (k : Kind)
    (hk : k = if cond.isVal then .cmi else .mi) (ha : aname ∈ approachNames k f) (ha' : CaseVariant a aname)
    (hd : 2 ≤ data.length) :
    callMI L data (.str a) cond kw = .ok { cls := ⟨k, f⟩, data := data, cond := cond, kw := kw } := by
  have e2 := lower_variant L (names_ascii k f _ ha) ha'
  have hmi : L.run "mi" = "mi" := lower_variant L (by decide) (by unfold CaseVariant; decide)
  have hcmi : L.run "cmi" = "cmi" := lower_variant L (by decide) (by unfold CaseVariant; decide)
  have hr := ((C45_approach_resolution L k (.str a)).1 ⟨k, f⟩).2 ⟨rfl, a, rfl, by rw [e2]; exact ha⟩
  unfold callMI dynEstimator
  cases hc : cond.isVal with
  | true =>
    rw [hc] at hk; simp only [if_true] at hk; subst hk
    simp only [if_true, getEstimatorClass_names L .cmi (m := "cmi") (by rw [hcmi]; decide), hr, bind, Except.bind]
    rw [if_neg (by omega)]; rfl
  | false =>
    rw [hc] at hk; simp only [Bool.false_eq_true, if_false] at hk; subst hk
    simp only [Bool.false_eq_true, if_false, getEstimatorClass_names L .mi (m := "mi") (by rw [hmi]; decide), hr,
      bind, Except.bind]
    rw [if_neg (by omega)]; rfl

/-- **C45** The same for transfer entropy. -/
theorem C45_condition_selects_te (L : PyLower) (data : List D) (f : Fam) (aname a : String)
    (cond : CondKw D) (kw : String → Option V) (k : Kind)
    (hk : k = if cond.isVal then .cte else .te) (ha : aname ∈ approachNames k f) (ha' : CaseVariant a aname)
    (hd : data.length = 2) :
    callTE L data (.str a) cond kw = .ok { cls := ⟨k, f⟩, data := data, cond := cond, kw := kw } := by
  have e2 := lower_variant L (names_ascii k f _ ha) ha'
  have hmi : L.run "te" = "te" := lower_variant L (by decide) (by unfold CaseVariant; decide)
  have hcmi : L.run "cte" = "cte" := lower_variant L (by decide) (by unfold CaseVariant; decide)
  have hr := ((C45_approach_resolution L k (.str a)).1 ⟨k, f⟩).2 ⟨rfl, a, rfl, by rw [e2]; exact ha⟩
  unfold callTE dynEstimator
  cases hc : cond.isVal with
  | true =>
    rw [hc] at hk; simp only [if_true] at hk; subst hk
    simp only [if_true, getEstimatorClass_names L .cte (m := "cte") (by rw [hcmi]; decide), hr, bind, Except.bind]
    rw [if_neg (by omega)]; rfl
  | false =>
    rw [hc] at hk; simp only [Bool.false_eq_true, if_false] at hk; subst hk
    simp only [Bool.false_eq_true, if_false, getEstimatorClass_names L .te (m := "te") (by rw [hmi]; decide), hr,
      bind, Except.bind]
    rw [if_neg (by omega)]; rfl

/-- Python's `lower` on ASCII exists: the contract is satisfiable -/
def asciiLower : PyLower :=
  { run := fun s => String.ofList (s.toList.map Char.toLower), ascii := fun s _ => by simp }

example := C45_case_insensitive asciiLower "mi" "Mi" "KSG" "ksg" (by decide) (by decide)

example := C45_condition_selects (D := List Int) (V := Int) asciiLower [[5, 7], [0, 1]] .metric "ksg" "KSG" (.val [1, 1]) (fun _ => none)
  .cmi rfl (by decide) (by unfold CaseVariant; decide) (by decide)

example := C45_condition_selects_te (D := List Int) (V := Int) asciiLower [[5, 7], [0, 1]] .metric "ksg" "KSG" .absent (fun _ => none)
  .te rfl (by decide) (by unfold CaseVariant; decide) (by decide)

example : getEstimatorClass asciiLower (.str "MI") (.str "Symbolic") = .ok ⟨.mi, .ordinal⟩ :=
  C45_every_alias_and_case asciiLower .mi .ordinal "mi" "symbolic" _ _ (by decide) (by decide)
    (by unfold CaseVariant; decide) (by unfold CaseVariant; decide)

end Verif
