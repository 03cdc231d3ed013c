import Verif.Spec.EndToEnd
import Verif.Props.Dispatch3

/-!
# C82: spelling, keyword arguments and the factory, for the public functions

Concrete calls that meet the hypotheses are in `Props/EndToEndEx.lean`.
-/

namespace Verif

open Spec

variable {W : World}

/-- the class call of a public function -/
theorem pubFn_run (W : World) (fn : PubFn) (data : List PyData) (a : PyName) (cond : CondKw PyData) (kw : Kw) :
    ∃ r, fn.run W data a cond kw = runCall (buildEst W) (Est.result W) r ∧
      Guarded W.lower a r (fn.kind cond) data cond kw (Resolves W.lower (fn.kind cond) a ∧ fn.Takes data cond) := by
  cases fn with
  | entropy => exact ⟨_, rfl, by simpa [PubFn.kind, PubFn.Takes] using C46_entropy_guard W.lower data a cond kw⟩
  | crossEntropy => exact ⟨_, rfl, C46_cross_entropy_guard W.lower data a cond kw⟩
  | mutualInformation =>
    refine ⟨_, rfl, ?_⟩
    have := C46_mi_guard W.lower data a cond kw
    cases cond <;> simpa [PubFn.kind, PubFn.Takes, CondKw.isVal] using this
  | conditionalMutualInformation =>
    refine ⟨_, rfl, ?_⟩
    have := C46_cmi_guard W.lower data a cond kw
    simpa only [PubFn.kind, PubFn.Takes, and_left_comm] using this
  | transferEntropy =>
    refine ⟨_, rfl, ?_⟩
    have := C46_te_guard W.lower data a cond kw
    cases cond <;> simpa [PubFn.kind, PubFn.Takes, CondKw.isVal] using this
  | conditionalTransferEntropy =>
    refine ⟨_, rfl, ?_⟩
    have := C46_cte_guard W.lower data a cond kw
    simpa only [PubFn.kind, PubFn.Takes, and_left_comm] using this

/-- **C82** An unknown approach name, or the wrong number of series, or a missing condition, is a ValueError, whatever the keyword
arguments. -/
theorem C82_value_error (fn : PubFn) (data : List PyData) (a : PyName) (cond : CondKw PyData) (kw : Kw)
    (h : (∀ f, ¬ Names W.lower (fn.kind cond) a f) ∨ ¬ fn.Takes data cond) : fn.run W data a cond kw = .error .valueError := by
  obtain ⟨r, e, hg⟩ := pubFn_run W fn data a cond kw
  rw [e]
  rcases hg with ⟨⟨_, ht⟩, f, hf, _⟩ | ⟨_, e'⟩
  · rcases h with h | h
    · exact absurd hf (h f)
    · exact absurd ht h
  · rw [e']; rfl

theorem pubFn_ok {fn : PubFn} {data : List PyData} {a : PyName} {cond : CondKw PyData} {f : Fam}
    (hn : Names W.lower (fn.kind cond) a f) (ht : fn.Takes data cond) (kw : Kw) :
    fn.run W data a cond kw = (buildEst W { cls := ⟨fn.kind cond, f⟩, data := data, cond := cond, kw := kw }) >>= Est.result W := by
  obtain ⟨r, e, hg⟩ := pubFn_run W fn data a cond kw
  rcases hg with ⟨_, g, hg, e'⟩ | ⟨hnot, _⟩
  · rw [e, e', hg.unique hn]; rfl
  · exact absurd ⟨hn.resolves, ht⟩ hnot

/-- **C82** All spellings of a family's name give the same result (value or exception). -/
theorem C82_spelling (fn : PubFn) (data : List PyData) (a a' : PyName) (cond : CondKw PyData) (kw : Kw) (f : Fam)
    (h : Names W.lower (fn.kind cond) a f) (h' : Names W.lower (fn.kind cond) a' f) :
    fn.run W data a cond kw = fn.run W data a' cond kw := by
  by_cases ht : fn.Takes data cond
  · rw [pubFn_ok h ht, pubFn_ok h' ht]
  · rw [C82_value_error fn data a cond kw (.inr ht), C82_value_error fn data a' cond kw (.inr ht)]

/-- **C82** A keyword argument that is not documented for the estimator, or a missing required one, is a TypeError (given the right
number of series): no keyword argument is silently dropped. -/
theorem C82_type_error (fn : PubFn) (data : List PyData) (a : PyName) (cond : CondKw PyData) (kw : Kw) (f : Fam)
    (hn : Names W.lower (fn.kind cond) a f) (ht : fn.Takes data cond) (hk : kw "cond" = none)
    (h : (∃ r ∈ requiredKw (fn.kind cond) f, kw r = none) ∨ ∃ k, kw k ≠ none ∧ k ∉ acceptedKw W.b0 ⟨fn.kind cond, f⟩) :
    fn.run W data a cond kw = .error .typeError := by
  rw [pubFn_ok hn ht]
  simp only [buildEst, bind, Except.bind]
  rw [C81_type_error W.b0 { cls := ⟨fn.kind cond, f⟩, data := data, cond := cond, kw := kw } hk h]

/-- **C82** Passing the documented default explicitly does not change the result. -/
theorem C82_explicit_default (fn : PubFn) (data : List PyData) (a : PyName) (cond : CondKw PyData) (kw : Kw) (f : Fam)
    (hn : Names W.lower (fn.kind cond) a f) (k : String) (d : PyVal) (ho : (k, d) ∈ optionalKw W.b0 ⟨fn.kind cond, f⟩)
    (hk : kw k = none) : fn.run W data a cond (fun i => if i = k then some d else kw i) = fn.run W data a cond kw := by
  by_cases ht : fn.Takes data cond
  · rw [pubFn_ok hn ht, pubFn_ok hn ht]
    have := C81_explicit_default W.b0 { cls := ⟨fn.kind cond, f⟩, data := data, cond := cond, kw := kw } k d ho hk
    simp only [buildEst, bind, Except.bind]
    rw [← this]
    rfl
  · rw [C82_value_error fn data a cond _ (.inr ht), C82_value_error fn data a cond _ (.inr ht)]

/-- **C82** Keyword arguments that are accepted and ignored have no effect. -/
theorem C82_ignored (fn : PubFn) (data : List PyData) (a : PyName) (cond : CondKw PyData) (kw : Kw) (f : Fam)
    (hn : Names W.lower (fn.kind cond) a f) (k : String) (v : PyVal) (hk : k ∈ ignoredKw (fn.kind cond) f) :
    fn.run W data a cond (fun i => if i = k then some v else kw i) = fn.run W data a cond kw := by
  by_cases ht : fn.Takes data cond
  · rw [pubFn_ok hn ht, pubFn_ok hn ht]
    have := C81_ignored W.b0 { cls := ⟨fn.kind cond, f⟩, data := data, cond := cond, kw := kw } k v hk
    simp only [buildEst, bind, Except.bind]
    rw [← this]
    rfl
  · rw [C82_value_error fn data a cond _ (.inr ht), C82_value_error fn data a cond _ (.inr ht)]

/-- filling in documented defaults of the transfer entropies does not change the class call -/
theorem buildEst_defaults (W : World) : RespectsDefaults PyVal.int (buildEst W) := by
  intro c hc
  have step : ∀ (keys : List String), (∀ k ∈ keys, k ∈ ["step_size", "src_hist_len", "dest_hist_len", "cond_hist_len", "prop_time"]) →
      ctorParams W.b0 { c with kw := fun k => if k ∈ keys then (c.kw k).or (documentedDefault PyVal.int k) else c.kw k } =
        ctorParams W.b0 c := by
    intro keys
    induction keys with
    | nil => intro _; simp
    | cons k ks ih =>
      intro hk
      rw [← ih (fun j hj => hk j (List.mem_cons_of_mem _ hj))]
      set c' : CtorCall PyData PyVal :=
        { c with kw := fun k => if k ∈ ks then (c.kw k).or (documentedDefault PyVal.int k) else c.kw k } with hc'
      by_cases hin : k ∈ ks
      · congr 1
        simp only [hc']
        congr 1
        funext j
        by_cases hj : j = k
        · subst hj; simp [hin]
        · simp [hj]
      · cases hck : c.kw k with
        | some v =>
          congr 1
          simp only [hc']
          congr 1
          funext j
          by_cases hj : j = k
          · subst hj; simp [hin, hck]
          · simp [hj]
        | none =>
          obtain ⟨d, hd, hmem⟩ : ∃ d, documentedDefault PyVal.int k = some d ∧ (k, d) ∈ optionalKw W.b0 c.cls := by
            have h5 := hk k (by simp)
            have hopt : ∀ p ∈ commonKw W.b0 c.cls.kind, p ∈ optionalKw W.b0 c.cls := fun p hp => by
              unfold optionalKw; exact List.mem_append_right _ hp
            simp only [List.mem_cons, List.not_mem_nil, or_false] at h5
            rcases h5 with rfl | rfl | rfl | rfl | rfl <;> refine ⟨_, rfl, hopt _ ?_⟩ <;>
              rcases hc with e | e <;> rw [e] <;> simp [commonKw]
          rw [← C81_explicit_default W.b0 c' k d hmem (by simp [hc', hin, hck])]
          congr 1
          simp only [hc', CtorCall.withKw]
          congr 1
          funext j
          by_cases hj : j = k
          · subst hj; simp [hck, hd]
          · simp [hj]
  have := step ["step_size", "src_hist_len", "dest_hist_len", "cond_hist_len", "prop_time"] (fun k hk => hk)
  unfold buildEst
  have hkw : (fun k => if k ∈ ["step_size", "src_hist_len", "dest_hist_len", "cond_hist_len", "prop_time"] then
      (c.kw k).or (documentedDefault PyVal.int k) else c.kw k) = fun k => (c.kw k).or (documentedDefault PyVal.int k) := by
    funext k
    by_cases h : k ∈ ["step_size", "src_hist_len", "dest_hist_len", "cond_hist_len", "prop_time"]
    · rw [if_pos h]
    · rw [if_neg h]
      have : documentedDefault PyVal.int k = none := by
        unfold documentedDefault
        simp only [List.mem_cons, List.not_mem_nil, or_false, not_or] at h ⊢
        rw [if_neg (by tauto), if_neg h.2.2.2.2]
      simp [this]
  rw [hkw] at this
  rw [this]

/-- **C82** `im.estimator(…, measure=…).result()` is the functional call, for one or two variables and without
transfer-entropy parameters. -/
theorem C82_factory_entropy (data : List PyData) (a : PyName) (kw : Kw) (m : String) (hkw : NoNamed kw)
    (hm : measureComp W.lower m ∈ measureNames .h) (hd : data.length = 1 ∨ data.length = 2) :
    imEstimator W data a kw none (.str m) = imEntropy W data a .absent kw := by
  unfold imEstimator imEntropy
  rw [C58_entropy_agrees W.lower PyVal.int data m a kw hkw hm hd]

theorem C82_factory_cross_entropy (data : List PyData) (a : PyName) (kw : Kw) (m : String) (hkw : NoNamed kw)
    (hm : measureComp W.lower m ∈ crossNames) (hd : data.length ≤ 2) :
    imEstimator W data a kw none (.str m) = imCrossEntropy W data a .absent kw := by
  unfold imEstimator imCrossEntropy
  rw [C58_cross_entropy_agrees W.lower PyVal.int data m a kw hkw hm hd]

/-- **C82** mutual information of two or more variables, with or without condition. -/
theorem C82_factory_mi (data : List PyData) (cond : Option PyData) (a : PyName) (kw : Kw) (m : String) (hkw : NoNamed kw)
    (hm : measureComp W.lower m ∈ measureNames .mi) (hd : 2 ≤ data.length) :
    imEstimator W data a kw cond (.str m) = imMI W data a (condOf cond) kw := by
  unfold imEstimator imMI
  rw [C58_mi_agrees W.lower PyVal.int data cond m a kw hkw hm hd]

theorem C82_factory_cmi (data : List PyData) (cond : Option PyData) (a : PyName) (kw : Kw) (m : String) (hkw : NoNamed kw)
    (hm : measureComp W.lower m ∈ measureNames .cmi) (hd : 2 ≤ data.length) :
    imEstimator W data a kw cond (.str m) = imCMI W data a (condOf cond) kw := by
  unfold imEstimator imCMI
  rw [C58_cmi_agrees W.lower PyVal.int data cond m a kw hkw hm hd]

/-- **C82** transfer entropy, with or without condition: the factory's own defaults of the five transfer-entropy parameters are
the estimators' defaults. -/
theorem C82_factory_te (data : List PyData) (cond : Option PyData) (a : PyName) (kw : Kw) (m : String)
    (hm : measureComp W.lower m ∈ measureNames .te) (hc : cond = none → kw "cond_hist_len" = none) :
    imEstimator W data a kw cond (.str m) = imTE W data a (condOf cond) kw := by
  have h := C58_te_agrees W.lower PyVal.int (buildEst W) (buildEst_defaults W) data cond m a kw hm hc
  have e : ∀ r : Except Exc (CtorCall PyData PyVal), runCall (buildEst W) (Est.result W) r = (r >>= buildEst W) >>= Est.result W := by
    intro r; cases r <;> rfl
  unfold imEstimator imTE
  rw [e, e, h]

end Verif
