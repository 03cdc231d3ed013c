import Verif.Props.Dispatch

/-! # C46, C58: arity guards; the `estimator` factory against the functional interface -/

namespace Verif

open Spec

variable {D V E R : Type}

/-- `a` names approach `f` of measure `k` -/
def Names (L : PyLower) (k : Kind) (a : PyName) (f : Fam) : Prop := ∃ s, a = .str s ∧ L.run s ∈ approachNames k f

/-- `a` names an approach of measure `k` -/
def Resolves (L : PyLower) (k : Kind) (a : PyName) : Prop := ∃ s f, a = .str s ∧ L.run s ∈ approachNames k f

/-- a name belongs to one approach only -/
theorem Names.unique {L : PyLower} {k : Kind} {a : PyName} {f g : Fam} (h : Names L k a f) (h' : Names L k a g) :
    f = g := by
  obtain ⟨s, rfl, hs⟩ := h
  obtain ⟨s', e, hs'⟩ := h'
  cases e
  have h1 := (lookup_iff k (L.run s) ⟨k, f⟩).2 ⟨rfl, hs⟩
  have h2 := (lookup_iff k (L.run s) ⟨k, g⟩).2 ⟨rfl, hs'⟩
  rw [h1] at h2
  simpa using h2

theorem resolve_cases (L : PyLower) (k : Kind) (a : PyName) :
    (Resolves L k a ∧ ∃ f, Names L k a f ∧ getEstimator L (tableOf k) a = .ok ⟨k, f⟩) ∨
    (¬ Resolves L k a ∧ getEstimator L (tableOf k) a = .error .valueError) := by
  by_cases h : Resolves L k a
  · obtain ⟨s, f, rfl, hf⟩ := h
    exact Or.inl ⟨⟨s, f, rfl, hf⟩, f, ⟨s, rfl, hf⟩, ((C45_approach_resolution L k _).1 ⟨k, f⟩).2 ⟨rfl, s, rfl, hf⟩⟩
  · exact Or.inr ⟨h, (C45_approach_resolution L k a).2.2 h⟩

theorem lower_mi (L : PyLower) : L.run "mi" = "mi" := lower_variant L (by decide) (by unfold CaseVariant; decide)
theorem lower_cmi (L : PyLower) : L.run "cmi" = "cmi" := lower_variant L (by decide) (by unfold CaseVariant; decide)
theorem lower_te (L : PyLower) : L.run "te" = "te" := lower_variant L (by decide) (by unfold CaseVariant; decide)
theorem lower_cte (L : PyLower) : L.run "cte" = "cte" := lower_variant L (by decide) (by unfold CaseVariant; decide)
theorem lower_entropy (L : PyLower) : L.run "entropy" = "entropy" :=
  lower_variant L (by decide) (by unfold CaseVariant; decide)

theorem not_resolves_none (L : PyLower) (k : Kind) : ¬ Resolves L k .none := by
  rintro ⟨s, f, h, _⟩; cases h

theorem dynEstimator_single (L : PyLower) (a : PyName) (cond : CondKw D) :
    dynEstimator L (.single "entropy") a cond = getEstimator L entropyTable a := by
  have h := fun a => getEstimatorClass_names L .h (m := "entropy") (by rw [lower_entropy]; decide) a
  cases a with
  | none => rfl
  | other => exact h _
  | str s => exact h _

theorem dynEstimator_mi (L : PyLower) (a : PyName) (cond : CondKw D) :
    dynEstimator L (.pair "mi" "cmi") a cond = getEstimator L (tableOf (if cond.isVal then .cmi else .mi)) a := by
  have h := fun a => getEstimatorClass_names L .mi (m := "mi") (by rw [lower_mi]; decide) a
  have h' := fun a => getEstimatorClass_names L .cmi (m := "cmi") (by rw [lower_cmi]; decide) a
  cases a with
  | none => rfl
  | other => unfold dynEstimator; cases cond.isVal <;> simp [h, h']
  | str s => unfold dynEstimator; cases cond.isVal <;> simp [h, h']

theorem dynEstimator_te (L : PyLower) (a : PyName) (cond : CondKw D) :
    dynEstimator L (.pair "te" "cte") a cond = getEstimator L (tableOf (if cond.isVal then .cte else .te)) a := by
  have h := fun a => getEstimatorClass_names L .te (m := "te") (by rw [lower_te]; decide) a
  have h' := fun a => getEstimatorClass_names L .cte (m := "cte") (by rw [lower_cte]; decide) a
  cases a with
  | none => rfl
  | other => unfold dynEstimator; cases cond.isVal <;> simp [h, h']
  | str s => unfold dynEstimator; cases cond.isVal <;> simp [h, h']

/-- a call succeeds exactly when `P` holds, with the data, condition and keyword arguments given here and
the class of measure `k` that `a` names; otherwise it is a ValueError -/
def Guarded (L : PyLower) (a : PyName) (r : Except Exc (CtorCall D V)) (k : Kind) (data : List D)
    (cond : CondKw D) (kw : String → Option V) (P : Prop) : Prop :=
  (P ∧ ∃ f, Names L k a f ∧ r = .ok { cls := ⟨k, f⟩, data := data, cond := cond, kw := kw }) ∨
  (¬ P ∧ r = .error .valueError)

/-- two guarded calls with the same condition make the same class call -/
theorem Guarded.agree {L : PyLower} {a : PyName} {r r' : Except Exc (CtorCall D V)} {k : Kind} {data : List D}
    {cond : CondKw D} {kw : String → Option V} {P Q : Prop} (h : Guarded L a r k data cond kw P)
    (h' : Guarded L a r' k data cond kw Q) (hPQ : P ↔ Q) : r = r' := by
  rcases h with ⟨p, f, hf, e⟩ | ⟨p, e⟩ <;> rcases h' with ⟨q, g, hg, e'⟩ | ⟨q, e'⟩
  · rw [e, e', hf.unique hg]
  · exact absurd (hPQ.1 p) q
  · exact absurd (hPQ.2 q) p
  · rw [e, e']

/-- **C46** `entropy`: an estimator is created exactly when the approach is known. -/
theorem C46_entropy_guard (L : PyLower) (data : List D) (a : PyName) (cond : CondKw D)
    (kw : String → Option V) : Guarded L a (callEntropy L data a cond kw) .h data cond kw (Resolves L .h a) := by
  unfold callEntropy
  rw [dynEstimator_single]
  rcases resolve_cases L .h a with ⟨h, f, hf, e⟩ | ⟨h, e⟩
  · refine Or.inl ⟨h, f, hf, ?_⟩
    have e' : getEstimator L entropyTable a = .ok ⟨.h, f⟩ := e
    rw [e']; rfl
  · refine Or.inr ⟨h, ?_⟩
    have e' : getEstimator L entropyTable a = .error .valueError := e
    rw [e']; rfl

/-- **C46** `cross_entropy` additionally needs at least two variables. -/
theorem C46_cross_entropy_guard (L : PyLower) (data : List D) (a : PyName) (cond : CondKw D)
    (kw : String → Option V) :
    Guarded L a (callCrossEntropy L data a cond kw) .h data cond kw (Resolves L .h a ∧ 2 ≤ data.length) := by
  unfold callCrossEntropy
  by_cases hd : data.length < 2
  · rw [if_pos hd]; exact Or.inr ⟨fun h => by omega, rfl⟩
  · rw [if_neg hd]
    rcases C46_entropy_guard L data a cond kw with ⟨h, e⟩ | ⟨h, e⟩
    · exact Or.inl ⟨⟨h, by omega⟩, e⟩
    · exact Or.inr ⟨fun h' => h h'.1, e⟩

/-- **C46** `mutual_information` needs at least two variables and a known approach. -/
theorem C46_mi_guard (L : PyLower) (data : List D) (a : PyName) (cond : CondKw D) (kw : String → Option V) :
    let k : Kind := if cond.isVal then .cmi else .mi
    Guarded L a (callMI L data a cond kw) k data cond kw (Resolves L k a ∧ 2 ≤ data.length) := by
  intro k
  unfold callMI
  rw [dynEstimator_mi]
  rcases resolve_cases L k a with ⟨h, f, hf, e⟩ | ⟨h, e⟩
  · simp only [k] at e
    rw [e]
    simp only [bind, Except.bind]
    by_cases hd : data.length < 2
    · rw [if_pos hd]; exact Or.inr ⟨fun h => by omega, rfl⟩
    · rw [if_neg hd]; exact Or.inl ⟨⟨h, by omega⟩, f, hf, rfl⟩
  · simp only [k] at e
    rw [e]
    exact Or.inr ⟨fun h' => h h'.1, rfl⟩

/-- **C46** `conditional_mutual_information` needs a condition, at least two variables and a known
approach. -/
theorem C46_cmi_guard (L : PyLower) (data : List D) (a : PyName) (cond : CondKw D) (kw : String → Option V) :
    Guarded L a (callCMI L data a cond kw) .cmi data cond kw
      (cond.isVal = true ∧ Resolves L .cmi a ∧ 2 ≤ data.length) := by
  unfold callCMI
  cases hc : cond.isVal with
  | false => exact Or.inr ⟨fun h => absurd h.1 (by simp), rfl⟩
  | true =>
    rw [if_neg (by simp)]
    by_cases hd : data.length < 2
    · rw [if_pos hd]; exact Or.inr ⟨fun h => by omega, rfl⟩
    · rw [if_neg hd]
      have := C46_mi_guard L data a cond kw
      simp only [hc, if_true] at this
      rcases this with ⟨h, e⟩ | ⟨h, e⟩
      · exact Or.inl ⟨⟨rfl, h⟩, e⟩
      · exact Or.inr ⟨fun h' => h h'.2, e⟩

/-- **C46** `transfer_entropy` needs exactly two variables and a known approach. -/
theorem C46_te_guard (L : PyLower) (data : List D) (a : PyName) (cond : CondKw D) (kw : String → Option V) :
    let k : Kind := if cond.isVal then .cte else .te
    Guarded L a (callTE L data a cond kw) k data cond kw (Resolves L k a ∧ data.length = 2) := by
  intro k
  unfold callTE
  rw [dynEstimator_te]
  rcases resolve_cases L k a with ⟨h, f, hf, e⟩ | ⟨h, e⟩
  · simp only [k] at e
    rw [e]
    simp only [bind, Except.bind]
    by_cases hd : data.length ≠ 2
    · rw [if_pos hd]; exact Or.inr ⟨fun h => by omega, rfl⟩
    · rw [if_neg hd]; exact Or.inl ⟨⟨h, by omega⟩, f, hf, rfl⟩
  · simp only [k] at e
    rw [e]
    exact Or.inr ⟨fun h' => h h'.1, rfl⟩

/-- **C46** `conditional_transfer_entropy` needs a condition, exactly two variables and a known
approach. -/
theorem C46_cte_guard (L : PyLower) (data : List D) (a : PyName) (cond : CondKw D) (kw : String → Option V) :
    Guarded L a (callCTE L data a cond kw) .cte data cond kw
      (cond.isVal = true ∧ Resolves L .cte a ∧ data.length = 2) := by
  unfold callCTE
  cases hc : cond.isVal with
  | false => exact Or.inr ⟨fun h => absurd h.1 (by simp), rfl⟩
  | true =>
    rw [if_neg (by simp)]
    by_cases hd : data.length ≠ 2
    · rw [if_pos hd]; exact Or.inr ⟨fun h => by omega, rfl⟩
    · rw [if_neg hd]
      have := C46_te_guard L data a cond kw
      simp only [hc, if_true] at this
      rcases this with ⟨h, e⟩ | ⟨h, e⟩
      · exact Or.inl ⟨⟨rfl, h⟩, e⟩
      · exact Or.inr ⟨fun h' => h h'.2, e⟩

/-! ## The `estimator` factory -/

/-- measure names accepted by `estimator` that only concern entropy -/
def crossNames : List String := ["cross_entropy", "hx"]

/-- **C46** `estimator(..., measure="entropy" | "h")`, in any spelling the factory accepts: one or two
variables, no condition, a known approach. -/
theorem C46_estimator_entropy_guard (L : PyLower) (ofInt : Int → V) (data : List D) (cond : Option D)
    (m : String) (a : PyName) (kw : String → Option V)
    (hm : measureComp L m ∈ measureNames .h) :
    Guarded L a (callEstimator L ofInt data cond (.str m) a kw) .h data .absent (restKw kw)
      (cond = none ∧ (data.length = 1 ∨ data.length = 2) ∧ Resolves L .h a) := by
  unfold callEstimator
  have h1 : measureComp L m ∈ ["entropy", "h", "cross_entropy", "hx"] := by
    simp only [measureNames, List.mem_cons, List.not_mem_nil, or_false] at hm
    rcases hm with h | h <;> rw [h] <;> decide
  have h2 : measureComp L m ∉ ["cross_entropy", "hx"] := by
    simp only [measureNames, List.mem_cons, List.not_mem_nil, or_false] at hm
    rcases hm with h | h <;> rw [h] <;> decide
  have h3 : measureComp L m ∈ ["entropy", "h"] := hm
  simp only [if_pos h1, h2, h3, and_false, if_false, and_true]
  by_cases h0 : data.length = 0
  · rw [if_pos h0]; exact Or.inr ⟨fun h => by omega, rfl⟩
  rw [if_neg h0]
  cases cond with
  | some z => exact Or.inr ⟨fun h => absurd h.1 (by simp), rfl⟩
  | none =>
    rw [if_neg (by simp)]
    by_cases hl : 2 < data.length
    · rw [if_pos hl]; exact Or.inr ⟨fun h => by omega, rfl⟩
    rw [if_neg hl]
    rcases resolve_cases L .h a with ⟨h, f, hf, e⟩ | ⟨h, e⟩
    · refine Or.inl ⟨⟨rfl, by omega, h⟩, f, hf, ?_⟩
      have e' : getEstimator L entropyTable a = .ok ⟨.h, f⟩ := e
      rw [e']; rfl
    · refine Or.inr ⟨fun h' => h h'.2.2, ?_⟩
      have e' : getEstimator L entropyTable a = .error .valueError := e
      rw [e']; rfl

example := C46_estimator_entropy_guard (D := List Int) (V := Int) asciiLower id [[5, 7]] none "H" (.str "MM") (fun _ => none) (by decide +kernel)

/-- **C46** `estimator(..., measure="cross_entropy" | "hx")`: exactly two variables, no condition, a known
approach. -/
theorem C46_estimator_cross_entropy_guard (L : PyLower) (ofInt : Int → V) (data : List D) (cond : Option D)
    (m : String) (a : PyName) (kw : String → Option V)
    (hm : measureComp L m ∈ crossNames) :
    Guarded L a (callEstimator L ofInt data cond (.str m) a kw) .h data .absent (restKw kw)
      (cond = none ∧ data.length = 2 ∧ Resolves L .h a) := by
  unfold callEstimator
  have h1 : measureComp L m ∈ ["entropy", "h", "cross_entropy", "hx"] := by
    simp only [crossNames, List.mem_cons, List.not_mem_nil, or_false] at hm
    rcases hm with h | h <;> rw [h] <;> decide
  have h2 : measureComp L m ∉ ["entropy", "h"] := by
    simp only [crossNames, List.mem_cons, List.not_mem_nil, or_false] at hm
    rcases hm with h | h <;> rw [h] <;> decide
  have h3 : measureComp L m ∈ ["cross_entropy", "hx"] := hm
  simp only [if_pos h1, h2, h3, and_false, if_false, and_true]
  by_cases h0 : data.length < 2
  · rw [if_pos h0]; exact Or.inr ⟨fun h => by omega, rfl⟩
  rw [if_neg h0]
  cases cond with
  | some z => exact Or.inr ⟨fun h => absurd h.1 (by simp), rfl⟩
  | none =>
    rw [if_neg (by simp)]
    by_cases hl : 2 < data.length
    · rw [if_pos hl]; exact Or.inr ⟨fun h => by omega, rfl⟩
    rw [if_neg hl]
    rcases resolve_cases L .h a with ⟨h, f, hf, e⟩ | ⟨h, e⟩
    · refine Or.inl ⟨⟨rfl, by omega, h⟩, f, hf, ?_⟩
      have e' : getEstimator L entropyTable a = .ok ⟨.h, f⟩ := e
      rw [e']; rfl
    · refine Or.inr ⟨fun h' => h h'.2.2, ?_⟩
      have e' : getEstimator L entropyTable a = .error .valueError := e
      rw [e']; rfl

example := C46_estimator_cross_entropy_guard (D := List Int) (V := Int) asciiLower id [[5, 7], [0, 1]] none "Cross-Entropy" (.str "discrete")
  (fun _ => none) (by decide +kernel)

/-- the condition as the estimator classes see it -/
def condOf : Option D → CondKw D
  | some z => .val z
  | none => .absent

/-- **C46** `estimator(..., measure=MI names)` with two or more variables: a known approach, and a
condition when the conditional measure was asked for; a condition selects the conditional class whatever
the measure name. -/
theorem C46_estimator_mi_guard (L : PyLower) (ofInt : Int → V) (data : List D) (cond : Option D)
    (m : String) (a : PyName) (kw : String → Option V) (k : Kind) (hk : k = .mi ∨ k = .cmi)
    (hm : measureComp L m ∈ measureNames k) (hd : 2 ≤ data.length) :
    let kk : Kind := if cond.isSome then .cmi else .mi
    Guarded L a (callEstimator L ofInt data cond (.str m) a kw) kk data (condOf cond) (restKw kw)
      ((k = .cmi → cond.isSome = true) ∧ Resolves L kk a) := by
  intro kk
  unfold callEstimator
  have h1 : measureComp L m ∉ ["entropy", "h", "cross_entropy", "hx"] := by
    rcases hk with rfl | rfl <;> simp only [measureNames, List.mem_cons, List.not_mem_nil, or_false] at hm <;>
      rcases hm with h | h <;> rw [h] <;> decide
  have h2 : measureComp L m ∈ ["mutual_information", "mi", "conditional_mutual_information", "cmi"] := by
    rcases hk with rfl | rfl <;> simp only [measureNames, List.mem_cons, List.not_mem_nil, or_false] at hm <;>
      rcases hm with h | h <;> rw [h] <;> decide
  have h3 : measureComp L m ∈ ["cmi", "conditional_mutual_information"] ↔ k = .cmi := by
    rcases hk with rfl | rfl <;> simp only [measureNames, List.mem_cons, List.not_mem_nil, or_false] at hm <;>
      rcases hm with h | h <;> rw [h] <;> decide
  simp only [if_neg h1, if_pos h2, h3]
  cases cond with
  | none =>
    by_cases hkk : k = .cmi
    · rw [if_pos ⟨hkk, rfl⟩]; exact Or.inr ⟨fun h => absurd (h.1 hkk) (by simp), rfl⟩
    · rw [if_neg (fun h => hkk h.1), if_neg (by omega), if_neg (by omega)]
      rcases resolve_cases L .mi a with ⟨h, f, hf, e⟩ | ⟨h, e⟩
      · refine Or.inl ⟨⟨fun h => absurd h hkk, h⟩, f, hf, ?_⟩
        have e' : getEstimator L miTable a = .ok ⟨.mi, f⟩ := e
        rw [e']; rfl
      · refine Or.inr ⟨fun h' => h h'.2, ?_⟩
        have e' : getEstimator L miTable a = .error .valueError := e
        rw [e']; rfl
  | some z =>
    rw [if_neg (fun h => absurd h.2 (by simp)), if_neg (by omega), if_neg (by omega)]
    rcases resolve_cases L .cmi a with ⟨h, f, hf, e⟩ | ⟨h, e⟩
    · refine Or.inl ⟨⟨fun _ => rfl, h⟩, f, hf, ?_⟩
      have e' : getEstimator L cmiTable a = .ok ⟨.cmi, f⟩ := e
      rw [e']; rfl
    · refine Or.inr ⟨fun h' => h h'.2, ?_⟩
      have e' : getEstimator L cmiTable a = .error .valueError := e
      rw [e']; rfl

example := C46_estimator_mi_guard (D := List Int) (V := Int) asciiLower id [[5, 7], [0, 1]] (some [1, 1]) "Mutual Information" (.str "discrete")
  (fun _ => none) .mi (.inl rfl) (by decide +kernel) (by decide)

/-- the keyword arguments the factory hands to a transfer-entropy class -/
def factoryTeKw (ofInt : Int → V) (cond : Option D) (kw : String → Option V) : String → Option V :=
  match cond with
  | some _ => teKw ofInt ["prop_time", "src_hist_len", "dest_hist_len", "cond_hist_len", "step_size"] kw
  | none => teKw ofInt ["prop_time", "src_hist_len", "dest_hist_len", "step_size"] kw

/-- **C46** `estimator(..., measure=TE names)`: exactly two variables, a known approach, and a condition
when the conditional measure was asked for. -/
theorem C46_estimator_te_guard (L : PyLower) (ofInt : Int → V) (data : List D) (cond : Option D)
    (m : String) (a : PyName) (kw : String → Option V) (k : Kind) (hk : k = .te ∨ k = .cte)
    (hm : measureComp L m ∈ measureNames k) :
    let kk : Kind := if cond.isSome then .cte else .te
    Guarded L a (callEstimator L ofInt data cond (.str m) a kw) kk data (condOf cond) (factoryTeKw ofInt cond kw)
      ((k = .cte → cond.isSome = true) ∧ data.length = 2 ∧ Resolves L kk a) := by
  intro kk
  unfold callEstimator
  have h1 : measureComp L m ∉ ["entropy", "h", "cross_entropy", "hx"] := by
    rcases hk with rfl | rfl <;> simp only [measureNames, List.mem_cons, List.not_mem_nil, or_false] at hm <;>
      rcases hm with h | h <;> rw [h] <;> decide
  have h2 : measureComp L m ∉ ["mutual_information", "mi", "conditional_mutual_information", "cmi"] := by
    rcases hk with rfl | rfl <;> simp only [measureNames, List.mem_cons, List.not_mem_nil, or_false] at hm <;>
      rcases hm with h | h <;> rw [h] <;> decide
  have h2' : measureComp L m ∈ ["transfer_entropy", "te", "conditional_transfer_entropy", "cte"] := by
    rcases hk with rfl | rfl <;> simp only [measureNames, List.mem_cons, List.not_mem_nil, or_false] at hm <;>
      rcases hm with h | h <;> rw [h] <;> decide
  have h3 : measureComp L m ∈ ["cte", "conditional_transfer_entropy"] ↔ k = .cte := by
    rcases hk with rfl | rfl <;> simp only [measureNames, List.mem_cons, List.not_mem_nil, or_false] at hm <;>
      rcases hm with h | h <;> rw [h] <;> decide
  simp only [if_neg h1, if_neg h2, if_pos h2', h3]
  cases cond with
  | none =>
    by_cases hkk : k = .cte
    · rw [if_pos ⟨hkk, rfl⟩]; exact Or.inr ⟨fun h => absurd (h.1 hkk) (by simp), rfl⟩
    · rw [if_neg (fun h => hkk h.1)]
      by_cases hd : data.length ≠ 2
      · rw [if_pos hd]; exact Or.inr ⟨fun h => hd h.2.1, rfl⟩
      rw [if_neg hd]
      rcases resolve_cases L .te a with ⟨h, f, hf, e⟩ | ⟨h, e⟩
      · refine Or.inl ⟨⟨fun h => absurd h hkk, by omega, h⟩, f, hf, ?_⟩
        have e' : getEstimator L teTable a = .ok ⟨.te, f⟩ := e
        rw [e']; rfl
      · refine Or.inr ⟨fun h' => h h'.2.2, ?_⟩
        have e' : getEstimator L teTable a = .error .valueError := e
        rw [e']; rfl
  | some z =>
    rw [if_neg (fun h => absurd h.2 (by simp))]
    by_cases hd : data.length ≠ 2
    · rw [if_pos hd]; exact Or.inr ⟨fun h => hd h.2.1, rfl⟩
    rw [if_neg hd]
    rcases resolve_cases L .cte a with ⟨h, f, hf, e⟩ | ⟨h, e⟩
    · refine Or.inl ⟨⟨fun _ => rfl, by omega, h⟩, f, hf, ?_⟩
      have e' : getEstimator L cteTable a = .ok ⟨.cte, f⟩ := e
      rw [e']; rfl
    · refine Or.inr ⟨fun h' => h h'.2.2, ?_⟩
      have e' : getEstimator L cteTable a = .error .valueError := e
      rw [e']; rfl

example := C46_estimator_te_guard (D := List Int) (V := Int) asciiLower id [[5, 7], [0, 1]] (some [1, 1]) "CTE" (.str "discrete")
  (fun _ => none) .cte (.inr rfl) (by decide +kernel)

/-- **C46** Every other measure name is a ValueError. -/
theorem C46_estimator_unknown_measure (L : PyLower) (ofInt : Int → V) (data : List D) (cond : Option D)
    (m : String) (a : PyName) (kw : String → Option V)
    (hm : ∀ k, measureComp L m ∉ measureNames k) (hx : measureComp L m ∉ crossNames) :
    callEstimator L ofInt data cond (.str m) a kw = .error .valueError := by
  have h1 := hm .h
  have h2 := hm .mi
  have h3 := hm .cmi
  have h4 := hm .te
  have h5 := hm .cte
  simp only [measureNames, crossNames, List.mem_cons, List.not_mem_nil, or_false, not_or] at h1 h2 h3 h4 h5 hx
  unfold callEstimator
  simp only [List.mem_cons, List.not_mem_nil, or_false, h1, h2, h3, h4, h5, hx, if_false]

example := C46_estimator_unknown_measure (D := List Int) (V := Int) asciiLower id [[5, 7], [0, 1]] none "jsd" (.str "discrete")
  (fun _ => none) (by intro k; cases k <;> decide +kernel) (by decide +kernel)

/-! ## C58: factory against functional interface -/

/-- none of the named transfer-entropy parameters is passed -/
def NoNamed (kw : String → Option V) : Prop := ∀ k ∈ namedParams, kw k = none

theorem restKw_of_noNamed {kw : String → Option V} (h : NoNamed kw) : restKw kw = kw := by
  funext k
  unfold restKw
  split_ifs with hk
  · exact (h k hk).symm
  · rfl

/-- **C58** Without transfer-entropy parameters, the factory makes exactly the class call of `entropy`,
for one or two variables. -/
theorem C58_entropy_agrees (L : PyLower) (ofInt : Int → V) (data : List D) (m : String) (a : PyName)
    (kw : String → Option V) (hkw : NoNamed kw) (hm : measureComp L m ∈ measureNames .h)
    (hd : data.length = 1 ∨ data.length = 2) :
    callEstimator L ofInt data none (.str m) a kw = callEntropy L data a .absent kw := by
  have h1 := C46_estimator_entropy_guard L ofInt data none m a kw hm
  rw [restKw_of_noNamed hkw] at h1
  exact h1.agree (C46_entropy_guard L data a .absent kw) ⟨fun h => h.2.2, fun h => ⟨rfl, hd, h⟩⟩

example := C58_entropy_agrees (D := List Int) (V := Int) asciiLower id [[5, 7]] "Entropy" (.str "discrete")
  (fun k => if k = "base" then some 2 else none) (by unfold NoNamed; decide) (by decide +kernel) (by decide)

/-- **C58** The same for cross-entropy of two variables. -/
theorem C58_cross_entropy_agrees (L : PyLower) (ofInt : Int → V) (data : List D) (m : String) (a : PyName)
    (kw : String → Option V) (hkw : NoNamed kw) (hm : measureComp L m ∈ crossNames) (hd : data.length ≤ 2) :
    callEstimator L ofInt data none (.str m) a kw = callCrossEntropy L data a .absent kw := by
  have h1 := C46_estimator_cross_entropy_guard L ofInt data none m a kw hm
  rw [restKw_of_noNamed hkw] at h1
  exact h1.agree (C46_cross_entropy_guard L data a .absent kw)
    ⟨fun h => ⟨h.2.2, by omega⟩, fun h => ⟨rfl, by omega, h.1⟩⟩

example := C58_cross_entropy_agrees (D := List Int) (V := Int) asciiLower id [[5, 7], [0, 1]] "HX" (.str "discrete")
  (fun k => if k = "base" then some 2 else none) (by unfold NoNamed; decide) (by decide +kernel) (by decide)

/-- **C58** Without transfer-entropy parameters and with at least two variables, the factory makes exactly
the class call of `mutual_information`. -/
theorem C58_mi_agrees (L : PyLower) (ofInt : Int → V) (data : List D) (cond : Option D) (m : String)
    (a : PyName) (kw : String → Option V) (hkw : NoNamed kw) (hm : measureComp L m ∈ measureNames .mi)
    (hd : 2 ≤ data.length) :
    callEstimator L ofInt data cond (.str m) a kw = callMI L data a (condOf cond) kw := by
  have h1 := C46_estimator_mi_guard L ofInt data cond m a kw .mi (Or.inl rfl) hm hd
  have h2 := C46_mi_guard L data a (condOf cond) kw
  rw [restKw_of_noNamed hkw] at h1
  cases cond with
  | none => exact h1.agree h2 ⟨fun h => ⟨h.2, hd⟩, fun h => ⟨fun h => absurd h (by decide), h.1⟩⟩
  | some z => exact h1.agree h2 ⟨fun h => ⟨h.2, hd⟩, fun h => ⟨fun h => absurd h (by decide), h.1⟩⟩

example := C58_mi_agrees (D := List Int) (V := Int) asciiLower id [[5, 7], [0, 1]] none "mutual-information" (.str "discrete")
  (fun k => if k = "base" then some 2 else none) (by unfold NoNamed; decide) (by decide +kernel) (by decide)

/-- **C58** ... and with the conditional measure name that of `conditional_mutual_information`. -/
theorem C58_cmi_agrees (L : PyLower) (ofInt : Int → V) (data : List D) (cond : Option D) (m : String)
    (a : PyName) (kw : String → Option V) (hkw : NoNamed kw) (hm : measureComp L m ∈ measureNames .cmi)
    (hd : 2 ≤ data.length) :
    callEstimator L ofInt data cond (.str m) a kw = callCMI L data a (condOf cond) kw := by
  have h1 := C46_estimator_mi_guard L ofInt data cond m a kw .cmi (Or.inr rfl) hm hd
  have h2 := C46_cmi_guard L data a (condOf cond) kw
  rw [restKw_of_noNamed hkw] at h1
  cases cond with
  | none =>
    rcases h1 with ⟨h, _⟩ | ⟨_, e⟩
    · exact absurd (h.1 rfl) (by simp)
    · rcases h2 with ⟨h, _⟩ | ⟨_, e'⟩
      · exact absurd h.1 (by simp [condOf, CondKw.isVal])
      · rw [e, e']
  | some z => exact h1.agree h2 ⟨fun h => ⟨rfl, h.2, hd⟩, fun h => ⟨fun _ => rfl, h.2.1⟩⟩

example := C58_cmi_agrees (D := List Int) (V := Int) asciiLower id [[5, 7], [0, 1]] (some [1, 1]) "CMI" (.str "discrete")
  (fun k => if k = "base" then some 2 else none) (by unfold NoNamed; decide) (by decide +kernel) (by decide)

/-- specification: the documented defaults of the slicing parameters – no propagation time, unit histories and step -/
def documentedDefault (ofInt : Int → V) (k : String) : Option V :=
  if k ∈ ["step_size", "src_hist_len", "dest_hist_len", "cond_hist_len"] then some (ofInt 1)
  else if k = "prop_time" then some (ofInt 0) else none

/-- the factory passes the documented defaults -/
theorem teDefault_documented (ofInt : Int → V) (k : String) : teDefault ofInt k = documentedDefault ofInt k := by
  unfold teDefault documentedDefault
  by_cases h0 : k = "prop_time"
  · subst h0; simp
  · rw [if_neg h0]
    by_cases h1 : k ∈ ["step_size", "src_hist_len", "dest_hist_len", "cond_hist_len"]
    · rw [if_pos h1, if_pos (by simpa using h1)]
    · rw [if_neg h1, if_neg (by simpa using h1), if_neg h0]

/-- estimator classes whose transfer-entropy constructors read the slicing parameters with the defaults of
their signature (prop_time 0, the others 1), for example `transfer_entropy/discrete.py:45-58` -/
def RespectsDefaults (ofInt : Int → V) (ctor : CtorCall D V → Except Exc E) : Prop :=
  ∀ c : CtorCall D V, c.cls.kind = .te ∨ c.cls.kind = .cte →
    ctor c = ctor { c with kw := fun k => (c.kw k).or (documentedDefault ofInt k) }

theorem teKw_filled (ofInt : Int → V) (kw : String → Option V) :
    (fun k => (teKw ofInt ["prop_time", "src_hist_len", "dest_hist_len", "cond_hist_len", "step_size"] kw k).or
      (teDefault ofInt k)) = fun k => (kw k).or (teDefault ofInt k) := by
  funext k
  unfold teKw
  split_ifs with h
  · cases hk : kw k <;> cases hd : teDefault ofInt k <;> simp
  · unfold restKw
    rw [if_neg (by
      intro hn; apply h
      simp only [namedParams, List.mem_cons, List.not_mem_nil, or_false] at hn ⊢
      tauto)]

theorem teKw_filled' (ofInt : Int → V) (kw : String → Option V) (hc : kw "cond_hist_len" = none) :
    (fun k => (teKw ofInt ["prop_time", "src_hist_len", "dest_hist_len", "step_size"] kw k).or
      (teDefault ofInt k)) = fun k => (kw k).or (teDefault ofInt k) := by
  funext k
  unfold teKw
  split_ifs with h
  · cases hk : kw k <;> cases hd : teDefault ofInt k <;> simp
  · unfold restKw
    split_ifs with hn
    · have : k = "cond_hist_len" := by
        simp only [namedParams, List.mem_cons, List.not_mem_nil, or_false] at hn h
        tauto
      rw [this, hc]
    · rfl

/-- **C58** For transfer entropy the factory gives the estimator of the functional call for all keyword
arguments, given or left at their defaults (`cond_hist_len` only with a condition). -/
theorem C58_te_agrees (L : PyLower) (ofInt : Int → V) (ctor : CtorCall D V → Except Exc E)
    (hctor : RespectsDefaults ofInt ctor) (data : List D) (cond : Option D) (m : String)
    (a : PyName) (kw : String → Option V) (hm : measureComp L m ∈ measureNames .te)
    (hc : cond = none → kw "cond_hist_len" = none) :
    (callEstimator L ofInt data cond (.str m) a kw >>= ctor) = (callTE L data a (condOf cond) kw >>= ctor) := by
  have h1 := C46_estimator_te_guard L ofInt data cond m a kw .te (Or.inl rfl) hm
  have h2 := C46_te_guard L data a (condOf cond) kw
  cases cond with
  | none =>
    rcases h1 with ⟨p, f, hf, e⟩ | ⟨p, e⟩ <;> rcases h2 with ⟨q, g, hg, e'⟩ | ⟨q, e'⟩
    · have hfg : f = g := hf.unique hg
      rw [e, e', hfg]
      simp only [bind, Except.bind]
      rw [hctor _ (Or.inl rfl), hctor { cls := _, data := data, cond := _, kw := kw } (Or.inl rfl)]
      simp only [factoryTeKw, ← teDefault_documented, teKw_filled' ofInt kw (hc rfl)]
      rfl
    · exact absurd ⟨p.2.2, p.2.1⟩ q
    · exact absurd ⟨fun h => absurd h (by decide), q.2, q.1⟩ p
    · rw [e, e']
  | some z =>
    rcases h1 with ⟨p, f, hf, e⟩ | ⟨p, e⟩ <;> rcases h2 with ⟨q, g, hg, e'⟩ | ⟨q, e'⟩
    · have hfg : f = g := hf.unique hg
      rw [e, e', hfg]
      simp only [bind, Except.bind]
      rw [hctor _ (Or.inr rfl), hctor { cls := _, data := data, cond := _, kw := kw } (Or.inr rfl)]
      simp only [factoryTeKw, ← teDefault_documented, teKw_filled ofInt kw]
      rfl
    · exact absurd ⟨p.2.2, p.2.1⟩ q
    · exact absurd ⟨fun h => absurd h (by decide), q.2, q.1⟩ p
    · rw [e, e']

/-- a constructor that reads `src_hist_len` with its documented default -/
example := C58_te_agrees (D := List Int) (V := Int) (E := Option Int) asciiLower id
  (fun c => .ok ((c.kw "src_hist_len").or (documentedDefault id "src_hist_len")))
  (fun c _ => by simp only; cases c.kw "src_hist_len" <;> simp) [[5, 7], [0, 1]] none "TE" (.str "discrete")
  (fun k => if k = "step_size" then some 2 else none) (by decide +kernel) (fun _ => rfl)

/-- **C58** (negative) For entropy and mutual information the factory drops the named parameters:
whatever `step_size` (or any other of them) is given, the class is called as if it had not been. -/
theorem C58_factory_drops_step_size (L : PyLower) (ofInt : Int → V) (data : List D) (cond : Option D)
    (m : String) (a : PyName) (kw kw' : String → Option V) (k : Kind) (hk : k = .h ∨ k = .mi ∨ k = .cmi)
    (hm : measureComp L m ∈ measureNames k) (hkw : ∀ key, key ∉ namedParams → kw key = kw' key) :
    callEstimator L ofInt data cond (.str m) a kw = callEstimator L ofInt data cond (.str m) a kw' := by
  have hr : restKw kw = restKw kw' := by
    funext key; unfold restKw; split_ifs with h
    · rfl
    · exact hkw key h
  have h5 : measureComp L m ∉ ["transfer_entropy", "te", "conditional_transfer_entropy", "cte"] := by
    rcases hk with rfl | rfl | rfl <;> simp only [measureNames, List.mem_cons, List.not_mem_nil, or_false] at hm <;>
      rcases hm with h | h <;> rw [h] <;> decide
  unfold callEstimator
  simp only [hr, if_neg h5]

example := C58_factory_drops_step_size (D := List Int) (V := Int) asciiLower id [[5, 7], [0, 1]] none "MI" (.str "ordinal")
  (fun k => if k = "step_size" then some 2 else none) (fun _ => none) .mi (.inr (.inl rfl)) (by decide +kernel)
  (by intro key h; simp only [ite_eq_right_iff]; rintro rfl; exact absurd h (by decide))

/-- **C58** (negative) With a single variable the factory builds an entropy estimator and ignores the
condition, also when the conditional mutual information was asked for. -/
theorem C58_single_variable_ignores_condition (L : PyLower) (ofInt : Int → V) (x : D) (z : D)
    (m s : String) (kw : String → Option V) (f : Fam)
    (hm : measureComp L m ∈ measureNames .cmi) (hs : s ∈ approachNames .mi f) :
    callEstimator L ofInt [x] (some z) (.str m) (.str s) kw =
      .ok { cls := ⟨.h, f⟩, data := [x], cond := .absent, kw := restKw kw } := by
  have h1 : measureComp L m ∉ ["entropy", "h", "cross_entropy", "hx"] := by
    simp only [measureNames, List.mem_cons, List.not_mem_nil, or_false] at hm
    rcases hm with h | h <;> rw [h] <;> decide
  have h2 : measureComp L m ∈ ["mutual_information", "mi", "conditional_mutual_information", "cmi"] := by
    simp only [measureNames, List.mem_cons, List.not_mem_nil, or_false] at hm
    rcases hm with h | h <;> rw [h] <;> decide
  have hmap : ∃ e, miEntropyMap s = some e ∧ e ∈ approachNames .h f ∧ (∀ c ∈ e.toList, c.toNat < 128) ∧
      CaseVariant e e := by
    have : ∀ s ∈ approachNames .mi f, ∃ e ∈ approachNames .h f, miEntropyMap s = some e ∧
      (∀ c ∈ e.toList, c.toNat < 128) ∧ e.toList.map Char.toLower = e.toList := by
      cases f <;> decide
    obtain ⟨e, h1, h2, h3, h4⟩ := this s hs
    exact ⟨e, h2, h1, h3, h4⟩
  obtain ⟨e, he, hn, hasc, hcv⟩ := hmap
  have hl := lower_variant L hasc hcv
  have hg : getEstimator L entropyTable (.str e) = .ok ⟨.h, f⟩ :=
    ((C45_approach_resolution L .h (.str e)).1 ⟨.h, f⟩).2 ⟨rfl, e, rfl, by rw [hl]; exact hn⟩
  unfold callEstimator
  simp only [if_neg h1, if_pos h2, Option.isNone_some, Bool.false_eq_true, and_false, if_false]
  rw [if_neg (by simp), if_pos (by simp)]
  simp only [miEntropyLookup, he, bind, Except.bind, hg]
  rfl

example := C58_single_variable_ignores_condition (D := List Int) (V := Int) asciiLower id [5, 7] [1, 1] "cmi" "ordinal" (fun _ => none)
  .ordinal (by decide +kernel) (by decide)

/-- **C58** (negative) With a single variable the approach is looked up without lower-casing: an approach
in another capitalisation, which every other call accepts, is a KeyError. -/
theorem C58_single_variable_key_error (L : PyLower) (ofInt : Int → V) (x : D) (m : String)
    (a : PyName) (kw : String → Option V) (hm : measureComp L m ∈ measureNames .mi)
    (ha : ∀ s, a = .str s → ∀ f, s ∉ approachNames .mi f) :
    callEstimator L ofInt [x] none (.str m) a kw = .error .keyError := by
  have h1 : measureComp L m ∉ ["entropy", "h", "cross_entropy", "hx"] := by
    simp only [measureNames, List.mem_cons, List.not_mem_nil, or_false] at hm
    rcases hm with h | h <;> rw [h] <;> decide
  have h2 : measureComp L m ∈ ["mutual_information", "mi", "conditional_mutual_information", "cmi"] := by
    simp only [measureNames, List.mem_cons, List.not_mem_nil, or_false] at hm
    rcases hm with h | h <;> rw [h] <;> decide
  have h3 : measureComp L m ∉ ["cmi", "conditional_mutual_information"] := by
    simp only [measureNames, List.mem_cons, List.not_mem_nil, or_false] at hm
    rcases hm with h | h <;> rw [h] <;> decide
  have hlook : miEntropyLookup a = .error .keyError := by
    cases a with
    | none => rfl
    | other => rfl
    | str s =>
      have hs := ha s rfl
      have hk : s ≠ "ksg" := by
        rintro rfl; exact hs .metric (by decide)
      have hnone : miTable.lookup s = none := by
        cases h : miTable.lookup s with
        | none => rfl
        | some c =>
          have := (lookup_iff .mi s c).1 h
          exact absurd this.2 (hs c.fam)
      simp [miEntropyLookup, miEntropyMap, hk, hnone]
  unfold callEstimator
  simp only [if_neg h1, if_pos h2, h3, false_and, if_false]
  rw [if_neg (by simp), if_pos (by simp)]
  simp only [hlook, bind, Except.bind]

/-- the hypotheses of the last theorem are met by "MM", which is accepted with two variables -/
example : (∀ s, PyName.str "MM" = .str s → ∀ f, s ∉ approachNames .mi f) ∧
    CaseVariant "MM" "mm" ∧ "mm" ∈ approachNames .mi .millerMadow := by
  refine ⟨?_, by unfold CaseVariant; decide, by decide⟩
  intro s h f
  cases h
  cases f <;> decide

end Verif
