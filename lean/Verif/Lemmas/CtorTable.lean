import Verif.Lemmas.Ctor
import Verif.Spec.Ctor

/-! # The chains of the estimator classes, computed -/

namespace Verif

/-- the chains that can succeed -/
def ctorCompat (c : EstClass) (given : Bool) : Prop := c.kind = .h ∨ c.kind = .cmi ∨ c.kind = .cte ∨ given = false

theorem ctor_wf (b0 : PyVal) (c : EstClass) (given : Bool) (h : ctorCompat c given) :
    chainWF (ctorLayers b0 c given) = true := by
  obtain ⟨k, f⟩ := c
  unfold ctorCompat at h
  cases k <;> cases f <;> cases given <;> first | rfl | (simp at h)

theorem ctor_keep (b0 : PyVal) (c : EstClass) (given : Bool) (h : (c.kind = .cmi ∨ c.kind = .cte) → given = true) :
    chainKeep (ctorLayers b0 c given) = true := by
  obtain ⟨k, f⟩ := c
  cases k <;> cases f <;> cases given <;> first | rfl | (simp at h)

theorem ctor_ne_nil (b0 : PyVal) (c : EstClass) (given : Bool) : ctorLayers b0 c given ≠ [] := by
  obtain ⟨k, f⟩ := c
  cases k <;> cases f <;> simp [ctorLayers, entropyLayers]

theorem ctor_req (b0 : PyVal) (c : EstClass) (given : Bool) :
    chainReq (ctorLayers b0 c given) = requiredKw c.kind c.fam := by
  obtain ⟨k, f⟩ := c
  cases k <;> cases f <;> rfl

/-- the accepted names with the condition -/
noncomputable def accWithCond (b0 : PyVal) (c : EstClass) : List String :=
  acceptedKw b0 c ++ (if c.kind = .h then [] else ["cond"])

theorem ctor_acc_sub (b0 : PyVal) (c : EstClass) (given : Bool) :
    ((chainAcc (ctorLayers b0 c given)).all (fun k => decide (k ∈ accWithCond b0 c))) = true := by
  obtain ⟨k, f⟩ := c
  cases k <;> cases f <;> cases given <;> rfl

theorem ctor_acc_sup (b0 : PyVal) (c : EstClass) (given : Bool) :
    ((accWithCond b0 c).all (fun k => decide (k ∈ chainAcc (ctorLayers b0 c given)))) = true := by
  obtain ⟨k, f⟩ := c
  cases k <;> cases f <;> cases given <;> rfl

theorem ctor_acc (b0 : PyVal) (c : EstClass) (given : Bool) (k : String) :
    k ∈ chainAcc (ctorLayers b0 c given) ↔ k ∈ acceptedKw b0 c ∨ (k = "cond" ∧ c.kind ≠ .h) := by
  have h1 := ctor_acc_sub b0 c given
  have h2 := ctor_acc_sup b0 c given
  simp only [List.all_eq_true, decide_eq_true_eq] at h1 h2
  have h3 : k ∈ accWithCond b0 c ↔ k ∈ acceptedKw b0 c ∨ (k = "cond" ∧ c.kind ≠ .h) := by
    unfold accWithCond
    rw [List.mem_append]
    split
    · next hh => simp [hh]
    · next hh => simp [hh]
  rw [← h3]
  exact ⟨h1 k, h2 k⟩

theorem ctor_opt_map (b0 : PyVal) (c : EstClass) (given : Bool) :
    (optionalKw b0 c).map (fun p => chainOpt (ctorLayers b0 c given) p.1) =
      (optionalKw b0 c).map (fun p => some p.2) := by
  obtain ⟨k, f⟩ := c
  cases k <;> cases f <;> cases given <;> rfl

theorem ctor_opt (b0 : PyVal) (c : EstClass) (given : Bool) (p : String × PyVal)
    (hp : p ∈ optionalKw b0 c) : chainOpt (ctorLayers b0 c given) p.1 = some p.2 :=
  List.map_inj_left.1 (ctor_opt_map b0 c given) p hp

theorem ctor_cond_not_accepted (b0 : PyVal) (c : EstClass) : "cond" ∉ acceptedKw b0 c := by
  obtain ⟨k, f⟩ := c
  have : (decide ("cond" ∈ acceptedKw b0 ⟨k, f⟩)) = false := by
    cases k <;> cases f <;> rfl
  simpa using this

/-- an unconditional class that is given a condition hands it on to a constructor that does not take it -/
theorem ctor_given_mi (b0 : PyVal) (c : EstClass) (h : c.kind = .mi ∨ c.kind = .te) (kw : Kw) :
    runLayers (ctorLayers b0 c true) kw = .error .typeError := by
  obtain ⟨k, f⟩ := c
  have key : ∀ L : List Layer, (match L with
      | [] => false
      | l :: ls => (!ls.isEmpty) && chainWF ls && (l.send.all (fun k => decide (k ∈ l.names)))
          && decide ("cond" ∈ l.sent) && !(decide ("cond" ∈ chainAcc ls))) = true →
      runLayers L kw = .error .typeError := by
    intro L hL
    match L, hL with
    | [], hL => cases hL
    | l :: ls, hL =>
      simp only [Bool.and_eq_true, decide_eq_true_eq, List.all_eq_true, Bool.not_eq_true', decide_eq_false_iff_not] at hL
      obtain ⟨⟨⟨⟨h1, h2⟩, h3⟩, h4⟩, h5⟩ := hL
      exact chain_rejects l ls (by intro e; subst e; simp at h1) h2 kw "cond" h3 h4 h5
  cases k <;> simp at h <;> cases f <;> exact key _ rfl

/-- ignored names are dropped by the first constructor -/
theorem ctor_ignored (b0 : PyVal) (c : EstClass) (given : Bool) (k : String) (hk : k ∈ ignoredKw c.kind c.fam)
    (kw : Kw) (v : PyVal) : runLayers (ctorLayers b0 c given) (kw.set k v) = runLayers (ctorLayers b0 c given) kw := by
  obtain ⟨kd, f⟩ := c
  cases kd <;> cases f <;> simp only [ignoredKw, List.not_mem_nil, List.mem_singleton] at hk <;> subst hk <;>
    exact chain_dropped _ _ kw "step_size" v (by simp) (by cases given <;> simp [Layer.names]) rfl

end Verif
