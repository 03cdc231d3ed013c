import Verif.Spec.EndToEndLocal
import Verif.Lemmas.EndToEndLocal

/-!
# C84: local values of an estimator, end to end

`im.estimator(*data, measure=…, approach=…, …).local_vals()` against `.result()` of the same call.
-/

namespace Verif

open Spec

variable {W : World} {data : List PyData} {c : Option PyData} {m : String} {a : PyName} {kw : Kw} {k : Kind} {f : Fam}

/-- the keyword arguments the factory hands to the class -/
def factoryKw (c : Option PyData) (kw : Kw) : Kind → Kw
  | .te => factoryTeKw PyVal.int c kw
  | .cte => factoryTeKw PyVal.int c kw
  | _ => restKw kw

theorem asks_call (hk : Asks W.lower m data c k) (hn : Names W.lower k a f) :
    callEstimator W.lower PyVal.int data c (.str m) a kw =
      .ok { cls := ⟨k, f⟩, data := data, cond := condOf c, kw := factoryKw c kw k } := by
  cases k with
  | h =>
    rcases hk with ⟨h1, rfl, h3⟩ | ⟨h1, rfl, h3⟩
    · exact guarded_ok (C46_estimator_entropy_guard W.lower PyVal.int data none m a kw h1) ⟨rfl, h3, hn.resolves⟩ hn
    · exact guarded_ok (C46_estimator_cross_entropy_guard W.lower PyVal.int data none m a kw h1) ⟨rfl, h3, hn.resolves⟩ hn
  | mi =>
    obtain ⟨h1, rfl, h3⟩ := hk
    have := C46_estimator_mi_guard W.lower PyVal.int data none m a kw .mi (.inl rfl) h1 h3
    exact guarded_ok this ⟨by simp, hn.resolves⟩ hn
  | cmi =>
    obtain ⟨h1, h2, h3⟩ := hk
    rcases h1 with h1 | h1
    · have := C46_estimator_mi_guard W.lower PyVal.int data c m a kw .mi (.inl rfl) h1 h3
      simp only [h2, if_true] at this
      exact guarded_ok this ⟨by simp, hn.resolves⟩ hn
    · have := C46_estimator_mi_guard W.lower PyVal.int data c m a kw .cmi (.inr rfl) h1 h3
      simp only [h2, if_true] at this
      exact guarded_ok this ⟨by simp, hn.resolves⟩ hn
  | te =>
    obtain ⟨h1, rfl, h3⟩ := hk
    have := C46_estimator_te_guard W.lower PyVal.int data none m a kw .te (.inl rfl) h1
    exact guarded_ok this ⟨by simp, h3, hn.resolves⟩ hn
  | cte =>
    obtain ⟨h1, h2, h3⟩ := hk
    rcases h1 with h1 | h1
    · have := C46_estimator_te_guard W.lower PyVal.int data c m a kw .te (.inl rfl) h1
      simp only [h2, if_true] at this
      exact guarded_ok this ⟨by simp, h3, hn.resolves⟩ hn
    · have := C46_estimator_te_guard W.lower PyVal.int data c m a kw .cte (.inr rfl) h1
      simp only [h2, if_true] at this
      exact guarded_ok this ⟨by simp, h3, hn.resolves⟩ hn

theorem condOf_toOption (c : Option PyData) : (condOf c).toOption = c := by cases c <;> rfl

/-- value and local values of one call come from the same object -/
theorem local_eval (hk : Asks W.lower m data c k) (hn : Names W.lower k a f) :
    (∃ x, imEstimator W data a kw c (.str m) = .error x ∧ imLocal W data c (.str m) a kw = some (.error x)) ∨
    ∃ p, imEstimator W data a kw c (.str m) = Est.result W ⟨⟨k, f⟩, data, c, p⟩ ∧
      imLocal W data c (.str m) a kw = Est.locals W ⟨⟨k, f⟩, data, c, p⟩ := by
  have h := asks_call (kw := kw) hk hn
  unfold imEstimator imLocal
  simp only [h, runCall, bind, Except.bind, buildEst, condOf_toOption]
  cases hp : ctorParams W.b0 { cls := ⟨k, f⟩, data := data, cond := condOf c, kw := factoryKw c kw k } with
  | error x => left; exact ⟨x, rfl, rfl⟩
  | ok p => right; exact ⟨p, rfl, rfl⟩

/-- the local values and the value of an estimator in the modelled fragment -/
theorem est_pair (P : Kind → Fam → Except Exc ℝ → Except Exc (List ℝ) → Prop) {e : Est} {l : Except Exc (List ℝ)}
    (hh : e.cls.kind = .h → e.entropyLocal W = some l → ∃ r, e.entropy W = some r ∧ P .h e.cls.fam r l)
    (hmi : e.miLocals W = some l → ∃ r, e.mi W = some r ∧ P .mi e.cls.fam r l)
    (hcmi : e.cmiLocals W = some l → ∃ r, e.cmi W = some r ∧ P .cmi e.cls.fam r l)
    (hte : e.teLocals W = some l → ∃ r, e.teVal W = some r ∧ P .te e.cls.fam r l)
    (hcte : e.cteLocals W = some l → ∃ r, e.cteVal W = some r ∧ P .cte e.cls.fam r l)
    (h : e.locals W = some l) : P e.cls.kind e.cls.fam (e.result W) l := by
  unfold Est.locals at h
  unfold Est.result
  cases hk : e.cls.kind <;> simp only [hk] at h ⊢
  · obtain ⟨r, h1, h2⟩ := hh hk h; rw [h1]; exact h2
  · obtain ⟨r, h1, h2⟩ := hmi h; rw [h1]; exact h2
  · obtain ⟨r, h1, h2⟩ := hcmi h; rw [h1]; exact h2
  · obtain ⟨r, h1, h2⟩ := hte h; rw [h1]; exact h2
  · obtain ⟨r, h1, h2⟩ := hcte h; rw [h1]; exact h2

/-! ## The mean of the local values -/

theorem combine_mean {est : HEst} {plus minus : List (DiscreteData Int)} {ls : List ℝ} (h : combineHLocal est plus minus = .ok ls) :
    combineH est plus minus = .ok (mean ls) := by
  unfold combineHLocal at h
  have e : combineH est plus minus = match combineLocals est plus minus with
      | .ok arr => .ok (arr.sum / arr.length)
      | .error e =>
        if e = .unsupportedOperation ∨ e = .theoreticalInconsistency then do
          let gs ← plus.mapM est.globalVal
          let ms ← minus.mapM est.globalVal
          pure (ms.foldl (fun acc v => acc - v) gs.sum)
        else .error e := rfl
  cases hl : combineLocals est plus minus with
  | ok arr => rw [hl] at h e; cases h; rw [e]; rfl
  | error x =>
    rw [hl] at h
    simp only at h
    split_ifs at h
    unfold afterGlobal at h
    split at h <;> cases h

theorem meanOrNan_mean {r : Except Exc ℝ} {l : Except Exc (List ℝ)} (hr : r = l >>= meanOrNan) {ls : List ℝ} (h : l = .ok ls)
    (hne : ls ≠ []) : r = .ok (mean ls) := by
  rw [hr, h]
  simp only [bind, Except.bind, meanOrNan, List.length_eq_zero_iff, hne, if_false]; rfl

theorem genericMI_mean {est : HEst} {xs : List (List Int)} {o : Option Int} {ls : List ℝ} (h : genericMILocal est xs o = .ok ls) :
    genericMI est xs o = .ok (mean ls) := by
  unfold genericMILocal at h
  unfold genericMI
  simp only [bind, Except.bind] at h ⊢
  split at h <;> [cases h; skip]
  split at h <;> [cases h; skip]
  split at h <;> [cases h; skip]
  exact combine_mean h

theorem genericCMI_mean {est : HEst} {xs : List (List Int)} {z : List Int} {o : Option Int} {ls : List ℝ}
    (h : genericCMILocal est xs z o = .ok ls) : genericCMI est xs z o = .ok (mean ls) := by
  unfold genericCMILocal at h
  unfold genericCMI
  simp only [bind, Except.bind] at h ⊢
  split at h <;> [cases h; skip]
  split at h <;> [cases h; skip]
  split at h <;> [cases h; skip]
  split at h <;> [cases h; skip]
  exact combine_mean h

theorem genericTE_mean {est : HEst} {x y : List Int} {p : TEParams} {u o : Option PyArg} {ls : List ℝ}
    (h : genericTELocal est x y p u o = .ok ls) : genericTE est x y p u o = .ok (mean ls) := by
  unfold genericTELocal at h
  unfold genericTE
  simp only [bind, Except.bind] at h ⊢
  iterate 7 (split at h <;> [cases h; skip])
  exact combine_mean h

theorem genericCTE_mean {est : HEst} {x y : List Int} {z : Option (List Int)} {p : TEParams} {n : PyArg} {u o : Option PyArg} {ls : List ℝ}
    (h : genericCTELocal est x y z p n u o = .ok ls) : genericCTE est x y z p n u o = .ok (mean ls) := by
  unfold genericCTELocal at h
  unfold genericCTE
  simp only [bind, Except.bind] at h ⊢
  iterate 7 (split at h <;> [cases h; skip])
  exact combine_mean h

/-- the approaches whose value is, by construction, the mean of the local values: kernel density and nearest neighbours for every measure, and
the bias-corrected approaches for every measure but the entropy -/
def meanFams : Kind → List Fam
  | .h => [.kernel, .metric]
  | _ => [.kernel, .metric, .nsb, .grassberger, .chaoShen, .chaoWangJost, .shrink, .zhang, .bonachela, .bayes, .ansb]

theorem est_mean {e : Est} (hf : e.cls.fam ∈ meanFams e.cls.kind) {ls : List ℝ} (hne : ls ≠ [])
    (h : e.locals W = some (.ok ls)) : e.result W = .ok (mean ls) := by
  have key := est_pair (W := W) (e := e) (l := .ok ls) (fun k f r _ => f ∈ meanFams k → r = .ok (mean ls)) ?_ ?_ ?_ ?_ ?_ h
  · exact key hf
  · intro hk hl
    refine pairEntropy (l := .ok ls) (fun f r l => l = .ok ls → f ∈ meanFams .h → r = .ok (mean ls)) ?_ ?_ ?_ ?_ ?_ ?_ hl |>.imp
      fun r hr => ⟨hr.1, hr.2 rfl⟩
    · rintro args cfg b - hl -
      unfold kernelEntropy
      split
      · simp [kernelEntropyLocal] at hl
      · exact meanOrNan_mean rfl hl hne
    · rintro args cfg n n' b - hl -
      unfold klEntropy
      cases hi : klInit args cfg with
      | error x => simp only [klEntropyLocal, hi, bind, Except.bind] at hl; cases hl
      | ok d =>
        simp only [bind, Except.bind]
        split
        · simp only [klEntropyLocal, hi, bind, Except.bind] at hl; cases hl
        · exact meanOrNan_mean rfl hl hne
    · intro _ _ _ _ _ hm; simp [meanFams] at hm
    · intro f hf _ _ _ _ _ _ _ hm
      simp only [List.mem_cons, List.not_mem_nil, or_false] at hf
      rcases hf with rfl | rfl <;> simp [meanFams] at hm
    · intro _ _ _ _ _ hm; simp [meanFams] at hm
    · intro c _ _ hc _ _ hm
      simp only [meanFams, List.mem_cons, List.not_mem_nil, or_false] at hm
      rcases hm with hm | hm <;> simp [Est.dclass, hm] at hc
  · intro hl
    refine pairMI (l := .ok ls) (fun f r l => l = .ok ls → f ∈ meanFams .mi → r = .ok (mean ls)) ?_ ?_ ?_ ?_ ?_ ?_ ?_ ?_ hl |>.imp
      fun r hr => ⟨hr.1, hr.2 rfl⟩
    · intro _ _ _ _ hm; simp [meanFams] at hm
    · intro _ _ _ _ hm; simp [meanFams] at hm
    · intro _ _ _ _ _ hl _; exact meanOrNan_mean rfl hl hne
    · intro _ _ _ _ _ _ hl _; exact meanOrNan_mean rfl hl hne
    · intro _ _ _ _ _ hm; simp [meanFams] at hm
    · intro f hf _ _ hm
      simp only [List.mem_cons, List.not_mem_nil, or_false] at hf
      rcases hf with rfl | rfl <;> simp [meanFams] at hm
    · intro K xs o b hl _
      unfold nsbMILocal at hl
      unfold nsbMI
      simp only [bind, Except.bind] at hl ⊢
      iterate 2 (split at hl <;> [cases hl; skip])
      exact genericMI_mean hl
    · intro c xs o b _ hl _
      unfold biasMILocal at hl
      unfold biasMI
      simp only [bind, Except.bind] at hl ⊢
      iterate 2 (split at hl <;> [cases hl; skip])
      exact genericMI_mean hl
  · intro hl
    refine pairCMI (l := .ok ls) (fun f r l => l = .ok ls → f ∈ meanFams .cmi → r = .ok (mean ls)) ?_ ?_ ?_ ?_ ?_ ?_ ?_ ?_ hl |>.imp
      fun r hr => ⟨hr.1, hr.2 rfl⟩
    · intro _ _ _ _ _ hm; simp [meanFams] at hm
    · intro _ _ _ _ _ hm; simp [meanFams] at hm
    · intro _ _ _ _ _ _ hl _; exact meanOrNan_mean rfl hl hne
    · intro _ _ _ _ _ _ _ _ hl _; exact meanOrNan_mean rfl hl hne
    · intro _ _ _ _ _ _ hm; simp [meanFams] at hm
    · intro f hf _ _ hm
      simp only [List.mem_cons, List.not_mem_nil, or_false] at hf
      rcases hf with rfl | rfl <;> simp [meanFams] at hm
    · intro K xs z o b hl _
      unfold nsbCMILocal at hl
      unfold nsbCMI
      simp only [bind, Except.bind] at hl ⊢
      iterate 2 (split at hl <;> [cases hl; skip])
      exact genericCMI_mean hl
    · intro c xs z o b _ hl _
      unfold biasCMILocal at hl
      unfold biasCMI
      simp only [bind, Except.bind] at hl ⊢
      iterate 2 (split at hl <;> [cases hl; skip])
      exact genericCMI_mean hl
  · intro hl
    refine pairTE (l := .ok ls) (fun f r l => l = .ok ls → f ∈ meanFams .te → r = .ok (mean ls)) ?_ ?_ ?_ ?_ ?_ ?_ ?_ ?_ hl |>.imp
      fun r hr => ⟨hr.1, hr.2 rfl⟩
    · intro _ _ _ _ _ _ _ hm; simp [meanFams] at hm
    · intro _ _ _ _ _ _ _ hm; simp [meanFams] at hm
    · intro _ _ _ _ _ _ _ hl _; exact meanOrNan_mean rfl hl hne
    · intro _ _ _ _ _ _ _ _ _ hl _; exact meanOrNan_mean rfl hl hne
    · intro _ _ _ _ _ _ _ hm; simp [meanFams] at hm
    · intro f hf _ _ hm
      simp only [List.mem_cons, List.not_mem_nil, or_false] at hf
      rcases hf with rfl | rfl <;> simp [meanFams] at hm
    · intro K x y p u o b hl _
      unfold nsbTELocal at hl
      unfold nsbTE
      simp only [bind, Except.bind] at hl ⊢
      iterate 2 (split at hl <;> [cases hl; skip])
      exact genericTE_mean hl
    · intro c x y p u o b _ hl _
      unfold biasTELocal at hl
      unfold biasTE
      simp only [bind, Except.bind] at hl ⊢
      iterate 2 (split at hl <;> [cases hl; skip])
      exact genericTE_mean hl
  · intro hl
    refine pairCTE (l := .ok ls) (fun f r l => l = .ok ls → f ∈ meanFams .cte → r = .ok (mean ls)) ?_ ?_ ?_ ?_ ?_ ?_ ?_ ?_ hl |>.imp
      fun r hr => ⟨hr.1, hr.2 rfl⟩
    · intro _ _ _ _ _ _ _ _ _ hm; simp [meanFams] at hm
    · intro _ _ _ _ _ _ _ _ _ hm; simp [meanFams] at hm
    · intro _ _ _ _ _ _ _ _ _ hl _; exact meanOrNan_mean rfl hl hne
    · intro _ _ _ _ _ _ _ _ _ _ _ _ hl _; exact meanOrNan_mean rfl hl hne
    · intro _ _ _ _ _ _ _ _ hm; simp [meanFams] at hm
    · intro f hf _ _ hm
      simp only [List.mem_cons, List.not_mem_nil, or_false] at hf
      rcases hf with rfl | rfl <;> simp [meanFams] at hm
    · intro K x y z p n u o b hl _
      unfold nsbCTELocal at hl
      unfold nsbCTE
      simp only [bind, Except.bind] at hl ⊢
      iterate 2 (split at hl <;> [cases hl; skip])
      exact genericCTE_mean hl
    · intro c x y z p n u o b _ hl _
      unfold biasCTELocal at hl
      unfold biasCTE
      simp only [bind, Except.bind] at hl ⊢
      iterate 2 (split at hl <;> [cases hl; skip])
      exact genericCTE_mean hl

/-- **C84** Whatever the data, the parameters and the noise: when `im.estimator(…).local_vals()` of one of these approaches returns local
values, `im.estimator(…).result()` returns their mean. -/
theorem C84_local_mean (hk : Asks W.lower m data c k) (hn : Names W.lower k a f) (hf : f ∈ meanFams k) (ls : List ℝ) (hne : ls ≠ [])
    (h : imLocal W data c (.str m) a kw = some (.ok ls)) :
    imEstimator W data a kw c (.str m) = .ok (mean ls) := by
  rcases local_eval (kw := kw) hk hn with ⟨x, h1, h2⟩ | ⟨p, h1, h2⟩
  · rw [h2] at h; cases h
  · rw [h1]
    rw [h2] at h
    exact est_mean (e := ⟨⟨k, f⟩, data, c, p⟩) hf hne h

/-! ## Exceptions -/

/-- the exception of the value is the exception of the local values -/
def SameError (r : Except Exc ℝ) (l : Except Exc (List ℝ)) : Prop := ∀ x, r = .error x → x ≠ .nonFinite → l = .error x

theorem same_mean (l : Except Exc (List ℝ)) : SameError (l >>= meanOrNan) l := by
  intro x h hx
  cases l with
  | error y => simpa [bind, Except.bind] using h
  | ok ls =>
    simp only [bind, Except.bind, meanOrNan] at h
    split_ifs at h
    cases h; exact absurd rfl hx

theorem same_after (r : Except Exc ℝ) (l : Except Exc (List ℝ)) : SameError r (afterGlobal r l) := by
  intro x h hx
  subst h
  cases x <;> first | rfl | exact absurd rfl hx

theorem same_error (y : Exc) : SameError (.error y) (.error y) := by
  intro x h _; cases h; rfl

theorem same_bind {β : Type} (g : Except Exc β) {r : β → Except Exc ℝ} {l : β → Except Exc (List ℝ)} (h : ∀ v, SameError (r v) (l v)) :
    SameError (g >>= r) (g >>= l) := by
  cases g with
  | error y => exact same_error y
  | ok v => exact h v

theorem same_seq (r : Except Exc ℝ) (l : Except Exc (List ℝ)) : SameError r (r >>= fun _ => l) := by
  intro x h _; subst h; rfl

theorem same_combine (est : HEst) (plus minus : List (DiscreteData Int)) : SameError (combineH est plus minus) (combineHLocal est plus minus) := by
  intro x h hx
  have e : combineH est plus minus = match combineLocals est plus minus with
      | .ok arr => .ok (arr.sum / arr.length)
      | .error e =>
        if e = .unsupportedOperation ∨ e = .theoreticalInconsistency then do
          let gs ← plus.mapM est.globalVal
          let ms ← minus.mapM est.globalVal
          pure (ms.foldl (fun acc v => acc - v) gs.sum)
        else .error e := rfl
  unfold combineHLocal
  cases hl : combineLocals est plus minus with
  | ok arr => rw [hl] at e; rw [e] at h; cases h
  | error y =>
    simp only
    split_ifs with hy
    · exact same_after _ _ x h hx
    · rw [hl] at e; simp only [hy, if_false] at e; rw [e] at h; cases h; rfl

theorem same_genericMI (est : HEst) (xs : List (List Int)) (o : Option Int) : SameError (genericMI est xs o) (genericMILocal est xs o) :=
  same_bind _ fun _ => same_bind _ fun _ => same_bind _ fun _ => same_combine _ _ _

theorem same_genericCMI (est : HEst) (xs : List (List Int)) (z : List Int) (o : Option Int) :
    SameError (genericCMI est xs z o) (genericCMILocal est xs z o) :=
  same_bind _ fun _ => same_bind _ fun _ => same_bind _ fun _ => same_bind _ fun _ => same_combine _ _ _

theorem same_genericTE (est : HEst) (x y : List Int) (p : TEParams) (u o : Option PyArg) :
    SameError (genericTE est x y p u o) (genericTELocal est x y p u o) :=
  same_bind _ fun _ => same_bind _ fun _ => same_bind _ fun _ => same_bind _ fun _ => same_bind _ fun _ => same_bind _ fun _ =>
    same_bind _ fun _ => same_combine _ _ _

theorem same_genericCTE (est : HEst) (x y : List Int) (z : Option (List Int)) (p : TEParams) (n : PyArg) (u o : Option PyArg) :
    SameError (genericCTE est x y z p n u o) (genericCTELocal est x y z p n u o) :=
  same_bind _ fun _ => same_bind _ fun _ => same_bind _ fun _ => same_bind _ fun _ => same_bind _ fun _ => same_bind _ fun _ =>
    same_bind _ fun _ => same_combine _ _ _

theorem klInit_one {a : KArg} {cfg : KlCfg} {d : List KArg} (h : klInit [a] cfg = .ok d) : d.length = 1 := by
  unfold klInit at h
  split_ifs at h <;> cases a <;> simp only [bind, Except.bind] at h <;> (try split_ifs at h) <;> cases h <;> rfl

theorem expInit_one {a : KArg} {k q : PyArg} {d : List KArg × Nat × ℝ} (h : expInit [a] k q = .ok d) : d.1.length = 1 := by
  unfold expInit at h
  cases a <;> simp only [bind, Except.bind] at h
  · split at h <;> [cases h; skip]
    split_ifs at h; cases h; rfl
  · split_ifs at h <;> (try (split at h)) <;> (try (cases h)) <;> rfl
  · cases h

theorem ordInit_one {a : OInput ℝ} {p : OrdParams} {d : List (OInput ℝ) × Int × Int} (h : ordInit [a] p = .ok d) : d.1.length = 1 := by
  unfold ordInit at h
  cases hb : ordBaseInit [a] with
  | error x => rw [hb] at h; cases h
  | ok v =>
    have hv : v.length = 1 := by
      unfold ordBaseInit at hb
      cases a <;> simp only at hb <;> (try split_ifs at hb) <;> cases hb <;> rfl
    rw [hb] at h
    simp only [bind, Except.bind] at h
    split_ifs at h
    split at h <;> [cases h; skip]
    split_ifs at h
    cases h; exact hv

theorem mapM_except_length {α β : Type} {f : α → Except Exc β} {l : List α} {r : List β} (h : l.mapM f = .ok r) : r.length = l.length := by
  induction l generalizing r with
  | nil => cases h; rfl
  | cons a t ih =>
    rw [List.mapM_cons] at h
    simp only [bind, Except.bind] at h
    split at h <;> [cases h; skip]
    split at h <;> [cases h; skip]
    rename_i hh
    cases h
    simp [ih hh]

theorem discreteHInit_one {a : EInput} {d : List (DiscreteData Int)} (h : discreteHInit [a] = .ok d) : d.length = 1 := by
  unfold discreteHInit at h
  simp only [bind, Except.bind] at h
  split at h <;> [cases h; skip]
  rename_i v hv
  rw [mapM_except_length h]
  unfold entropyInit at hv
  cases a <;> simp only at hv <;> (try split_ifs at hv) <;> cases hv <;> rfl

theorem est_same {e : Est} {l : Except Exc (List ℝ)} (hd : e.cls.kind = .h → e.data.length = 1) (h : e.locals W = some l) :
    SameError (e.result W) l := by
  refine est_pair (W := W) (e := e) (l := l) (fun _ _ r l => SameError r l) ?_ ?_ ?_ ?_ ?_ h
  · intro hk hl
    obtain ⟨d, hdd⟩ := List.length_eq_one_iff.1 (hd hk)
    refine pairEntropy (fun _ r l => SameError r l) ?_ ?_ ?_ ?_ ?_ ?_ hl
    · rintro args cfg b rfl
      unfold kernelEntropy
      split
      · rename_i h1; rw [hdd] at h1; simp at h1
      · exact same_mean _
    · rintro args cfg n n' b rfl
      unfold klEntropy
      cases hi : klInit (e.data.map PyData.toKArg) cfg with
      | error y =>
        simp only [klEntropyLocal, hi, bind, Except.bind]; exact same_error y
      | ok dd =>
        simp only [bind, Except.bind]
        split
        · rw [hdd] at hi
          exact absurd (klInit_one hi) (by simp)
        · exact same_mean _
    · rintro args p b rfl
      unfold ordEntropy ordEntropyLocal
      cases hi : ordInit (e.data.map PyData.toOInput) p with
      | error y => exact same_error y
      | ok i =>
        rw [hdd] at hi
        obtain ⟨v, hv⟩ := List.length_eq_one_iff.1 (ordInit_one hi)
        simp only [bind, Except.bind, hv]
        cases v with
        | arr1 x =>
          simp only
          cases ordSimple W.quick x i.2.1 i.2.2 p.stable b with
          | error y => exact same_error y
          | ok v => intro y hy; cases hy
        | tup cols =>
          simp only
          cases ordJoint W.quick cols i.2.1 i.2.2 b with
          | error y => exact same_error y
          | ok v => intro y hy; cases hy
        | _ => exact same_error _
    · rintro f - val args k q b rfl
      unfold expEntropyLocal
      cases hi : expInit (e.data.map PyData.toKArg) k q with
      | error y => unfold expEntropy; rw [hi]; exact same_error y
      | ok i =>
        rw [hdd] at hi
        obtain ⟨v, hv⟩ := List.length_eq_one_iff.1 (expInit_one hi)
        simp only [bind, Except.bind, hv]
        exact same_after _ _
    · intro K b xs hx
      unfold nsbEntropy discreteHLocal
      rw [hdd] at hx
      obtain ⟨z, rfl⟩ : ∃ z, xs = [z] := by
        cases hz : d.toEInput <;> simp [hz] at hx
        exact ⟨_, hx.symm⟩
      cases hi : discreteHInit [z] with
      | error y => exact same_error y
      | ok i =>
        obtain ⟨v, rfl⟩ := List.length_eq_one_iff.1 (discreteHInit_one hi)
        exact same_after _ _
    · intro c b xs _ hx
      unfold DClass.globalVal discreteHLocal
      rw [hdd] at hx
      obtain ⟨z, rfl⟩ : ∃ z, xs = [z] := by
        cases hz : d.toEInput <;> simp [hz] at hx
        exact ⟨_, hx.symm⟩
      cases hi : discreteHInit [z] with
      | error y => exact same_error y
      | ok i =>
        obtain ⟨v, rfl⟩ := List.length_eq_one_iff.1 (discreteHInit_one hi)
        exact same_after _ _
  · refine pairMI (fun _ r l => SameError r l) ?_ ?_ ?_ ?_ ?_ ?_ ?_ ?_
    · intros; exact same_after _ _
    · intros; exact same_after _ _
    · intros; exact same_mean _
    · intros; exact same_mean _
    · intros; exact same_bind _ fun _ => same_seq _ _
    · intros; exact same_after _ _
    · intros; exact same_bind _ fun _ => same_bind _ fun _ => same_genericMI _ _ _
    · intros; exact same_bind _ fun _ => same_bind _ fun _ => same_genericMI _ _ _
  · refine pairCMI (fun _ r l => SameError r l) ?_ ?_ ?_ ?_ ?_ ?_ ?_ ?_
    · intros; exact same_after _ _
    · intros; exact same_after _ _
    · intros; exact same_mean _
    · intros; exact same_mean _
    · intros; exact same_bind _ fun _ => same_seq _ _
    · intros; exact same_after _ _
    · intros; exact same_bind _ fun _ => same_bind _ fun _ => same_genericCMI _ _ _ _
    · intros; exact same_bind _ fun _ => same_bind _ fun _ => same_genericCMI _ _ _ _
  · refine pairTE (fun _ r l => SameError r l) ?_ ?_ ?_ ?_ ?_ ?_ ?_ ?_
    · intros; exact same_after _ _
    · intros; exact same_after _ _
    · intros; exact same_mean _
    · intros; exact same_mean _
    · intros; exact same_bind _ fun _ => same_bind _ fun _ => same_bind _ fun _ => same_bind _ fun _ => same_bind _ fun _ => same_seq _ _
    · intros; exact same_after _ _
    · intros; exact same_bind _ fun _ => same_bind _ fun _ => same_genericTE _ _ _ _ _ _
    · intros; exact same_bind _ fun _ => same_bind _ fun _ => same_genericTE _ _ _ _ _ _
  · refine pairCTE (fun _ r l => SameError r l) ?_ ?_ ?_ ?_ ?_ ?_ ?_ ?_
    · intros; exact same_after _ _
    · intros; exact same_after _ _
    · intros; exact same_mean _
    · intros; exact same_mean _
    · intros; exact same_bind _ fun _ => same_bind _ fun _ => same_bind _ fun _ => same_bind _ fun _ => same_bind _ fun _ =>
        same_bind _ fun _ => same_seq _ _
    · intros; exact same_after _ _
    · intros; exact same_bind _ fun _ => same_bind _ fun _ => same_genericCTE _ _ _ _ _ _ _ _
    · intros; exact same_bind _ fun _ => same_bind _ fun _ => same_genericCTE _ _ _ _ _ _ _ _

/-- **C84** `local_vals()` evaluates the value first: whatever exception `result()` raises for the call, `local_vals()` raises it too (only a value
that is not finite does not stop it; two data for the entropy are refused before, `C84_cross_entropy`). -/
theorem C84_same_exception (hk : Asks W.lower m data c k) (hn : Names W.lower k a f) (hd : k = .h → data.length = 1)
    (l : Except Exc (List ℝ)) (hl : imLocal W data c (.str m) a kw = some l) (x : Exc)
    (h : imEstimator W data a kw c (.str m) = .error x) (hx : x ≠ .nonFinite) : l = .error x := by
  rcases local_eval (kw := kw) hk hn with ⟨y, h1, h2⟩ | ⟨p, h1, h2⟩
  · rw [h1] at h; rw [h2] at hl; cases h; cases hl; rfl
  · rw [h1] at h; rw [h2] at hl
    exact est_same (e := ⟨⟨k, f⟩, data, c, p⟩) hd hl x h hx

theorem einput_two {u v : PyData} {xs : List EInput} (h : [u, v].mapM PyData.toEInput = some xs) : ∃ z w, xs = [z, w] := by
  cases hu : u.toEInput <;> cases hv : v.toEInput <;> simp [hu, hv] at h
  exact ⟨_, _, h.symm⟩

theorem discreteHInit_two {z w : EInput} {d : List (DiscreteData Int)} (h : discreteHInit [z, w] = .ok d) : ∃ s t, d = [s, t] := by
  unfold discreteHInit at h
  simp only [bind, Except.bind] at h
  split at h <;> [cases h; skip]
  rename_i v hv
  have h1 := mapM_except_length h
  have h2 : v.length = 2 := by
    unfold entropyInit at hv
    cases z <;> cases w <;> simp only at hv <;> cases hv <;> rfl
  exact List.length_eq_two.1 (h1.trans h2)

/-- **C84** Two data for the entropy (cross-entropy) have no local values: `UnsupportedOperation`, unless already the constructor rejects
the call. -/
theorem C84_cross_entropy (hk : Asks W.lower m data c .h) (hn : Names W.lower .h a f) (hd : data.length = 2) (l : Except Exc (List ℝ))
    (hl : imLocal W data c (.str m) a kw = some l) :
    l = .error .unsupportedOperation ∨ ∃ x, l = .error x ∧ imEstimator W data a kw c (.str m) = .error x := by
  rcases local_eval (kw := kw) hk hn with ⟨y, h1, h2⟩ | ⟨p, h1, h2⟩
  · rw [h2] at hl; cases hl; exact .inr ⟨y, rfl, h1⟩
  · rw [h1]; rw [h2] at hl
    obtain ⟨u, v, rfl⟩ := List.length_eq_two.1 hd
    have hl' : Est.entropyLocal W ⟨⟨.h, f⟩, [u, v], c, p⟩ = some l := hl
    suffices h : ∃ r, Est.entropy W ⟨⟨.h, f⟩, [u, v], c, p⟩ = some r ∧
        (l = .error .unsupportedOperation ∨ ∃ x, l = .error x ∧ r = .error x) by
      obtain ⟨r, hr, h⟩ := h
      rcases h with h | ⟨x, h, h'⟩
      · exact .inl h
      · refine .inr ⟨x, h, ?_⟩
        subst h'
        show (Est.entropy W ⟨⟨.h, f⟩, [u, v], c, p⟩).getD _ = _
        rw [hr]; rfl
    refine pairEntropy (fun _ r l => l = .error .unsupportedOperation ∨ ∃ x, l = .error x ∧ r = .error x) ?_ ?_ ?_ ?_ ?_ ?_ hl'
    · rintro args cfg b rfl
      simp only [List.map_cons, List.map_nil]
      cases hu : u.toKArg <;> cases hv : v.toKArg <;> first | exact .inl rfl | exact .inr ⟨_, rfl, rfl⟩
    · rintro args cfg n n' b rfl
      unfold klEntropy klEntropyLocal
      cases hi : klInit ([u, v].map PyData.toKArg) cfg with
      | error y => exact .inr ⟨y, rfl, rfl⟩
      | ok d =>
        left
        simp only [klInit, List.map_cons, List.map_nil] at hi
        simp only [bind, Except.bind]
        split_ifs at hi <;> cases hu : u.toKArg <;> cases hv : v.toKArg <;> rw [hu, hv] at hi <;>
          simp only [bind, Except.bind] at hi <;> cases hi <;> rfl
    · rintro args q b rfl
      unfold ordEntropy ordEntropyLocal
      cases hi : ordInit ([u, v].map PyData.toOInput) q with
      | error y => exact .inr ⟨y, rfl, rfl⟩
      | ok d =>
        left
        have : ∃ s t, d.1 = [s, t] := by
          unfold ordInit at hi
          cases hb : ordBaseInit ([u, v].map PyData.toOInput) with
          | error x => rw [hb] at hi; cases hi
          | ok w =>
            have hw : ∃ s t, w = [s, t] := by
              unfold ordBaseInit at hb
              simp only [List.map_cons, List.map_nil] at hb
              cases hu : u.toOInput <;> cases hv : v.toOInput <;> rw [hu, hv] at hb <;> simp only at hb <;> cases hb <;> exact ⟨_, _, rfl⟩
            rw [hb] at hi
            simp only [bind, Except.bind] at hi
            split_ifs at hi
            split at hi <;> [cases hi; skip]
            split_ifs at hi
            cases hi; exact hw
        obtain ⟨s, t, hst⟩ := this
        simp only [bind, Except.bind, hst]
    · rintro f - val args k q b rfl
      unfold expEntropyLocal
      cases hi : expInit ([u, v].map PyData.toKArg) k q with
      | error y => refine .inr ⟨y, rfl, ?_⟩; unfold expEntropy; rw [hi]; rfl
      | ok d =>
        left
        have : ∃ s t, d.1 = [s, t] := by
          simp only [expInit, List.map_cons, List.map_nil] at hi
          cases hu : u.toKArg <;> cases hv : v.toKArg <;> rw [hu, hv] at hi <;> simp only [bind, Except.bind] at hi <;>
            (try (split at hi)) <;> (try split_ifs at hi) <;> cases hi <;> exact ⟨_, _, rfl⟩
        obtain ⟨s, t, hst⟩ := this
        simp only [bind, Except.bind, hst]
    · intro K b xs hx
      unfold nsbEntropy discreteHLocal
      obtain ⟨z, w, rfl⟩ := einput_two hx
      cases hi : discreteHInit [z, w] with
      | error y => exact .inr ⟨y, rfl, rfl⟩
      | ok i =>
        obtain ⟨s, t, rfl⟩ := discreteHInit_two hi
        exact .inl rfl
    · intro C b xs _ hx
      unfold DClass.globalVal discreteHLocal
      obtain ⟨z, w, rfl⟩ := einput_two hx
      cases hi : discreteHInit [z, w] with
      | error y => exact .inr ⟨y, rfl, rfl⟩
      | ok i =>
        obtain ⟨s, t, rfl⟩ := discreteHInit_two hi
        exact .inl rfl

/-! ## Approaches without local values -/

/-- the approaches that have no local values for measure `k` -/
def noLocalFams : List Fam := [.renyi, .tsallis, .chaoShen, .bayes, .chaoWangJost, .bonachela, .ansb, .nsb]

/-- the exception `local_vals()` raises for them -/
def noLocalExc : Kind → Fam → Exc
  | .h, .chaoWangJost => .theoreticalInconsistency
  | .h, .bonachela => .theoreticalInconsistency
  | .h, .ansb => .theoreticalInconsistency
  | .h, .nsb => .theoreticalInconsistency
  | _, _ => .unsupportedOperation

/-- the exception `x`, or the exception of the value -/
def NoLocals (x : Exc) (r : Except Exc ℝ) (l : Except Exc (List ℝ)) : Prop :=
  l = .error x ∨ ∃ y, r = .error y ∧ l = .error y

theorem no_after (x : Exc) (r : Except Exc ℝ) : NoLocals x r (afterGlobal r (.error x)) := by
  cases r with
  | ok v => exact .inl rfl
  | error y =>
    cases y
    case nonFinite => exact .inl rfl
    all_goals exact .inr ⟨_, rfl, rfl⟩

theorem no_bind {β : Type} {x : Exc} (g : Except Exc β) {r : β → Except Exc ℝ} {l : β → Except Exc (List ℝ)}
    (h : ∀ v, NoLocals x (r v) (l v)) : NoLocals x (g >>= r) (g >>= l) := by
  cases g with
  | error y => exact .inr ⟨y, rfl, rfl⟩
  | ok v => exact h v

theorem no_combine {est : HEst} {e : Exc} (he : e = .unsupportedOperation ∨ e = .theoreticalInconsistency)
    (h : ∀ d, est.localVals d = .error e) (plus : List (DiscreteData Int)) (d : DiscreteData Int) (minus : List (DiscreteData Int)) :
    NoLocals .unsupportedOperation (combineH est plus (d :: minus)) (combineHLocal est plus (d :: minus)) := by
  have hc : combineLocals est plus (d :: minus) = .error e := by
    unfold combineLocals
    cases plus with
    | nil => simp [npSumAxis0, bind, Except.bind, pure, Except.pure, h]
    | cons p ps => simp [bind, Except.bind, h]
  unfold combineHLocal
  simp only [hc, he, if_true]
  exact no_after _ _

/-- the entropy estimator class has no local values -/
def HEst.Mute (est : HEst) : Prop := ∃ e, (e = .unsupportedOperation ∨ e = .theoreticalInconsistency) ∧ ∀ d, est.localVals d = .error e

theorem no_genericMI {est : HEst} (h : est.Mute) (xs : List (List Int)) (o : Option Int) :
    NoLocals .unsupportedOperation (genericMI est xs o) (genericMILocal est xs o) := by
  obtain ⟨e, he, h⟩ := h
  exact no_bind _ fun _ => no_bind _ fun _ => no_bind _ fun _ => no_combine he h _ _ _

theorem no_genericCMI {est : HEst} (h : est.Mute) (xs : List (List Int)) (z : List Int) (o : Option Int) :
    NoLocals .unsupportedOperation (genericCMI est xs z o) (genericCMILocal est xs z o) := by
  obtain ⟨e, he, h⟩ := h
  exact no_bind _ fun _ => no_bind _ fun _ => no_bind _ fun _ => no_bind _ fun _ => no_combine he h _ _ _

theorem no_genericTE {est : HEst} (h : est.Mute) (x y : List Int) (p : TEParams) (u o : Option PyArg) :
    NoLocals .unsupportedOperation (genericTE est x y p u o) (genericTELocal est x y p u o) := by
  obtain ⟨e, he, h⟩ := h
  exact no_bind _ fun _ => no_bind _ fun _ => no_bind _ fun _ => no_bind _ fun _ => no_bind _ fun _ => no_bind _ fun _ =>
    no_bind _ fun _ => no_combine he h _ _ _

theorem no_genericCTE {est : HEst} (h : est.Mute) (x y : List Int) (z : Option (List Int)) (p : TEParams) (n : PyArg) (u o : Option PyArg) :
    NoLocals .unsupportedOperation (genericCTE est x y z p n u o) (genericCTELocal est x y z p n u o) := by
  obtain ⟨e, he, h⟩ := h
  exact no_bind _ fun _ => no_bind _ fun _ => no_bind _ fun _ => no_bind _ fun _ => no_bind _ fun _ => no_bind _ fun _ =>
    no_bind _ fun _ => no_combine he h _ _ _

theorem nsb_mute (find : Int → Int → ℝ) (K : Option Int) (b : Base) : (nsbH find K b).Mute := ⟨_, .inr rfl, fun _ => rfl⟩

theorem bias_mute {e : Est} {c : BiasClass} (h : e.bclass = some c) (hf : e.cls.fam ∈ noLocalFams) (b : Base) : (c.est b).Mute := by
  unfold Est.bclass at h
  cases hx : e.cls.fam <;> rw [hx] at h hf <;> simp [noLocalFams] at hf <;> simp [Option.bind_eq_some_iff] at h
  · obtain ⟨u, _, rfl⟩ := h; exact ⟨_, .inr rfl, fun _ => rfl⟩
  · obtain ⟨u, _, K, _, rfl⟩ := h; exact ⟨_, .inl rfl, fun _ => rfl⟩
  · subst h; exact ⟨_, .inr rfl, fun _ => rfl⟩
  · subst h; exact ⟨_, .inl rfl, fun _ => rfl⟩
  · subst h; exact ⟨_, .inr rfl, fun _ => rfl⟩

theorem est_none {e : Est} {l : Except Exc (List ℝ)} (hf : e.cls.fam ∈ noLocalFams) (hd : e.cls.kind = .h → e.data.length = 1)
    (h : e.locals W = some l) : NoLocals (noLocalExc e.cls.kind e.cls.fam) (e.result W) l := by
  refine est_pair (W := W) (e := e) (l := l) (fun k f r l => NoLocals (noLocalExc k f) r l) ?_ ?_ ?_ ?_ ?_ h
  · intro hk hl
    obtain ⟨d, hdd⟩ := List.length_eq_one_iff.1 (hd hk)
    refine pairEntropy (fun f r l => f ∈ noLocalFams → NoLocals (noLocalExc .h f) r l) ?_ ?_ ?_ ?_ ?_ ?_ hl |>.imp fun r hr => ⟨hr.1, hr.2 hf⟩
    · intro _ _ _ _ hm; simp [noLocalFams] at hm
    · intro _ _ _ _ _ _ hm; simp [noLocalFams] at hm
    · intro _ _ _ _ hm; simp [noLocalFams] at hm
    · rintro f hf val args k q b rfl -
      have hx : noLocalExc .h f = .unsupportedOperation := by
        simp only [List.mem_cons, List.not_mem_nil, or_false] at hf
        rcases hf with rfl | rfl <;> rfl
      rw [hx]
      unfold expEntropyLocal
      cases hi : expInit (e.data.map PyData.toKArg) k q with
      | error y => refine .inr ⟨y, ?_, rfl⟩; unfold expEntropy; rw [hi]; rfl
      | ok i =>
        rw [hdd] at hi
        obtain ⟨v, hv⟩ := List.length_eq_one_iff.1 (expInit_one hi)
        simp only [bind, Except.bind, hv]
        exact no_after _ _
    · intro K b xs hx _
      unfold nsbEntropy discreteHLocal
      rw [hdd] at hx
      obtain ⟨z, rfl⟩ : ∃ z, xs = [z] := by
        cases hz : d.toEInput <;> simp [hz] at hx
        exact ⟨_, hx.symm⟩
      cases hi : discreteHInit [z] with
      | error y => exact .inr ⟨y, rfl, rfl⟩
      | ok i =>
        obtain ⟨v, rfl⟩ := List.length_eq_one_iff.1 (discreteHInit_one hi)
        exact no_after _ _
    · intro C b xs hc hx hm
      unfold DClass.globalVal discreteHLocal
      rw [hdd] at hx
      obtain ⟨z, rfl⟩ : ∃ z, xs = [z] := by
        cases hz : d.toEInput <;> simp [hz] at hx
        exact ⟨_, hx.symm⟩
      cases hi : discreteHInit [z] with
      | error y => exact .inr ⟨y, rfl, rfl⟩
      | ok i =>
        obtain ⟨v, rfl⟩ := List.length_eq_one_iff.1 (discreteHInit_one hi)
        have : C.localVals b v = .error (noLocalExc .h e.cls.fam) := by
          unfold Est.dclass at hc
          cases hx : e.cls.fam <;> rw [hx] at hc hm <;> simp [noLocalFams] at hm <;> simp [Option.bind_eq_some_iff] at hc
          · obtain ⟨u, _, rfl⟩ := hc; rfl
          · obtain ⟨u, _, K, _, rfl⟩ := hc; rfl
          · subst hc; rfl
          · subst hc; rfl
          · subst hc; rfl
        show NoLocals _ (C.simple b v) (afterGlobal (C.simple b v) (C.localVals b v))
        rw [this]
        exact no_after _ _
  · intro hl
    refine pairMI (fun f r l => f ∈ noLocalFams → NoLocals .unsupportedOperation r l) ?_ ?_ ?_ ?_ ?_ ?_ ?_ ?_ hl |>.imp fun r hr => ⟨hr.1, hr.2 hf⟩
    · intro _ _ _ hm; simp [noLocalFams] at hm
    · intro _ _ _ hm; simp [noLocalFams] at hm
    · intro _ _ _ _ _ hm; simp [noLocalFams] at hm
    · intro _ _ _ _ _ _ hm; simp [noLocalFams] at hm
    · intro _ _ _ _ hm; simp [noLocalFams] at hm
    · intros; exact no_after _ _
    · intros; exact no_bind _ fun _ => no_bind _ fun _ => no_genericMI (nsb_mute _ _ _) _ _
    · intro _ _ _ _ hc hm; exact no_bind _ fun _ => no_bind _ fun _ => no_genericMI (bias_mute hc hm _) _ _
  · intro hl
    refine pairCMI (fun f r l => f ∈ noLocalFams → NoLocals .unsupportedOperation r l) ?_ ?_ ?_ ?_ ?_ ?_ ?_ ?_ hl |>.imp fun r hr => ⟨hr.1, hr.2 hf⟩
    · intro _ _ _ _ hm; simp [noLocalFams] at hm
    · intro _ _ _ _ hm; simp [noLocalFams] at hm
    · intro _ _ _ _ _ _ hm; simp [noLocalFams] at hm
    · intro _ _ _ _ _ _ _ _ hm; simp [noLocalFams] at hm
    · intro _ _ _ _ _ hm; simp [noLocalFams] at hm
    · intros; exact no_after _ _
    · intros; exact no_bind _ fun _ => no_bind _ fun _ => no_genericCMI (nsb_mute _ _ _) _ _ _
    · intro _ _ _ _ _ hc hm; exact no_bind _ fun _ => no_bind _ fun _ => no_genericCMI (bias_mute hc hm _) _ _ _
  · intro hl
    refine pairTE (fun f r l => f ∈ noLocalFams → NoLocals .unsupportedOperation r l) ?_ ?_ ?_ ?_ ?_ ?_ ?_ ?_ hl |>.imp fun r hr => ⟨hr.1, hr.2 hf⟩
    · intro _ _ _ _ _ _ hm; simp [noLocalFams] at hm
    · intro _ _ _ _ _ _ hm; simp [noLocalFams] at hm
    · intro _ _ _ _ _ _ _ hm; simp [noLocalFams] at hm
    · intro _ _ _ _ _ _ _ _ _ hm; simp [noLocalFams] at hm
    · intro _ _ _ _ _ _ hm; simp [noLocalFams] at hm
    · intros; exact no_after _ _
    · intros; exact no_bind _ fun _ => no_bind _ fun _ => no_genericTE (nsb_mute _ _ _) _ _ _ _ _
    · intro _ _ _ _ _ _ _ hc hm; exact no_bind _ fun _ => no_bind _ fun _ => no_genericTE (bias_mute hc hm _) _ _ _ _ _
  · intro hl
    refine pairCTE (fun f r l => f ∈ noLocalFams → NoLocals .unsupportedOperation r l) ?_ ?_ ?_ ?_ ?_ ?_ ?_ ?_ hl |>.imp fun r hr => ⟨hr.1, hr.2 hf⟩
    · intro _ _ _ _ _ _ _ _ hm; simp [noLocalFams] at hm
    · intro _ _ _ _ _ _ _ _ hm; simp [noLocalFams] at hm
    · intro _ _ _ _ _ _ _ _ _ hm; simp [noLocalFams] at hm
    · intro _ _ _ _ _ _ _ _ _ _ _ _ hm; simp [noLocalFams] at hm
    · intro _ _ _ _ _ _ _ hm; simp [noLocalFams] at hm
    · intros; exact no_after _ _
    · intros; exact no_bind _ fun _ => no_bind _ fun _ => no_genericCTE (nsb_mute _ _ _) _ _ _ _ _ _ _
    · intro _ _ _ _ _ _ _ _ _ hc hm; exact no_bind _ fun _ => no_bind _ fun _ => no_genericCTE (bias_mute hc hm _) _ _ _ _ _ _ _

/-- **C84** The approaches without local values never return any: for one datum (entropy) or any other measure, `local_vals()` raises the documented
exception, or the exception `result()` raises for the same call. -/
theorem C84_no_local_values (hk : Asks W.lower m data c k) (hn : Names W.lower k a f) (hf : f ∈ noLocalFams) (hd : k = .h → data.length = 1)
    (l : Except Exc (List ℝ)) (hl : imLocal W data c (.str m) a kw = some l) :
    l = .error (noLocalExc k f) ∨ ∃ x, imEstimator W data a kw c (.str m) = .error x ∧ l = .error x := by
  rcases local_eval (kw := kw) hk hn with ⟨y, h1, h2⟩ | ⟨p, h1, h2⟩
  · rw [h2] at hl; cases hl; exact .inr ⟨y, h1, rfl⟩
  · rw [h1]; rw [h2] at hl
    exact est_none (e := ⟨⟨k, f⟩, data, c, p⟩) hf hd hl

/-! ## Kernel density and nearest neighbours: a value has local values -/

theorem local_of_value {r : Except Exc ℝ} {l : Except Exc (List ℝ)} (hr : r = l >>= meanOrNan) {g : ℝ} (h : r = .ok g) :
    ∃ ls, l = .ok ls ∧ ls ≠ [] ∧ mean ls = g := by
  subst hr
  cases l with
  | error x => cases h
  | ok ls =>
    simp only [bind, Except.bind, meanOrNan] at h
    split_ifs at h with h0
    cases h
    exact ⟨ls, rfl, fun h1 => h0 (by rw [h1]; rfl), rfl⟩

theorem est_exists {e : Est} {l : Except Exc (List ℝ)} (hf : e.cls.fam = .kernel ∨ e.cls.fam = .metric) (hd : e.cls.kind = .h → e.data.length = 1)
    (h : e.locals W = some l) {g : ℝ} (hg : e.result W = .ok g) : ∃ ls, l = .ok ls ∧ ls ≠ [] ∧ mean ls = g := by
  have key := est_pair (W := W) (e := e) (l := l) (fun _ f r l => f = .kernel ∨ f = .metric → r = .ok g → ∃ ls, l = .ok ls ∧ ls ≠ [] ∧ mean ls = g)
    ?_ ?_ ?_ ?_ ?_ h
  · exact key hf hg
  · intro hk hl
    obtain ⟨d, hdd⟩ := List.length_eq_one_iff.1 (hd hk)
    refine pairEntropy (fun f r l => f = .kernel ∨ f = .metric → r = .ok g → ∃ ls, l = .ok ls ∧ ls ≠ [] ∧ mean ls = g) ?_ ?_ ?_ ?_ ?_ ?_ hl
    · rintro args cfg b rfl - hv
      unfold kernelEntropy at hv
      split at hv
      · rename_i h1; rw [hdd] at h1; simp at h1
      · exact local_of_value rfl hv
    · rintro args cfg n n' b rfl - hv
      unfold klEntropy at hv
      cases hi : klInit (e.data.map PyData.toKArg) cfg with
      | error y => rw [hi] at hv; cases hv
      | ok dd =>
        simp only [hi, bind, Except.bind] at hv
        split at hv
        · rw [hdd] at hi
          exact absurd (klInit_one hi) (by simp)
        · exact local_of_value rfl hv
    · intro _ _ _ _ hm; simp at hm
    · intro f hf _ _ _ _ _ _ hm
      simp only [List.mem_cons, List.not_mem_nil, or_false] at hf
      rcases hf with rfl | rfl <;> simp at hm
    · intro _ _ _ _ hm; simp at hm
    · intro c _ _ hc _ hm
      rcases hm with hm | hm <;> simp [Est.dclass, hm] at hc
  · intro hl
    refine pairMI (fun f r l => f = .kernel ∨ f = .metric → r = .ok g → ∃ ls, l = .ok ls ∧ ls ≠ [] ∧ mean ls = g) ?_ ?_ ?_ ?_ ?_ ?_ ?_ ?_ hl
    · intro _ _ _ hm; simp at hm
    · intro _ _ _ hm; simp at hm
    · intro _ _ _ _ _ _ hv; exact local_of_value rfl hv
    · intro _ _ _ _ _ _ _ hv; exact local_of_value rfl hv
    · intro _ _ _ _ hm; simp at hm
    · intro f hf _ hm
      simp only [List.mem_cons, List.not_mem_nil, or_false] at hf
      rcases hf with rfl | rfl <;> simp at hm
    · intro _ _ _ _ hm; simp at hm
    · intro c _ _ _ hc hm
      rcases hm with hm | hm <;> simp [Est.bclass, hm] at hc
  · intro hl
    refine pairCMI (fun f r l => f = .kernel ∨ f = .metric → r = .ok g → ∃ ls, l = .ok ls ∧ ls ≠ [] ∧ mean ls = g) ?_ ?_ ?_ ?_ ?_ ?_ ?_ ?_ hl
    · intro _ _ _ _ hm; simp at hm
    · intro _ _ _ _ hm; simp at hm
    · intro _ _ _ _ _ _ _ hv; exact local_of_value rfl hv
    · intro _ _ _ _ _ _ _ _ _ hv; exact local_of_value rfl hv
    · intro _ _ _ _ _ hm; simp at hm
    · intro f hf _ hm
      simp only [List.mem_cons, List.not_mem_nil, or_false] at hf
      rcases hf with rfl | rfl <;> simp at hm
    · intro _ _ _ _ _ hm; simp at hm
    · intro c _ _ _ _ hc hm
      rcases hm with hm | hm <;> simp [Est.bclass, hm] at hc
  · intro hl
    refine pairTE (fun f r l => f = .kernel ∨ f = .metric → r = .ok g → ∃ ls, l = .ok ls ∧ ls ≠ [] ∧ mean ls = g) ?_ ?_ ?_ ?_ ?_ ?_ ?_ ?_ hl
    · intro _ _ _ _ _ _ hm; simp at hm
    · intro _ _ _ _ _ _ hm; simp at hm
    · intro _ _ _ _ _ _ _ _ hv; exact local_of_value rfl hv
    · intro _ _ _ _ _ _ _ _ _ _ hv; exact local_of_value rfl hv
    · intro _ _ _ _ _ _ hm; simp at hm
    · intro f hf _ hm
      simp only [List.mem_cons, List.not_mem_nil, or_false] at hf
      rcases hf with rfl | rfl <;> simp at hm
    · intro _ _ _ _ _ _ _ hm; simp at hm
    · intro c _ _ _ _ _ _ hc hm
      rcases hm with hm | hm <;> simp [Est.bclass, hm] at hc
  · intro hl
    refine pairCTE (fun f r l => f = .kernel ∨ f = .metric → r = .ok g → ∃ ls, l = .ok ls ∧ ls ≠ [] ∧ mean ls = g) ?_ ?_ ?_ ?_ ?_ ?_ ?_ ?_ hl
    · intro _ _ _ _ _ _ _ _ hm; simp at hm
    · intro _ _ _ _ _ _ _ _ hm; simp at hm
    · intro _ _ _ _ _ _ _ _ _ _ hv; exact local_of_value rfl hv
    · intro _ _ _ _ _ _ _ _ _ _ _ _ _ hv; exact local_of_value rfl hv
    · intro _ _ _ _ _ _ _ hm; simp at hm
    · intro f hf _ hm
      simp only [List.mem_cons, List.not_mem_nil, or_false] at hf
      rcases hf with rfl | rfl <;> simp at hm
    · intro _ _ _ _ _ _ _ _ _ hm; simp at hm
    · intro c _ _ _ _ _ _ _ _ hc hm
      rcases hm with hm | hm <;> simp [Est.bclass, hm] at hc

/-- **C84** Kernel density and nearest neighbours, every measure: when `result()` returns a value, `local_vals()` returns local values, at
least one, with that mean. -/
theorem C84_local_exists (hk : Asks W.lower m data c k) (hn : Names W.lower k a f) (hf : f = .kernel ∨ f = .metric)
    (hd : k = .h → data.length = 1) (l : Except Exc (List ℝ)) (h : imLocal W data c (.str m) a kw = some l) (g : ℝ)
    (hg : imEstimator W data a kw c (.str m) = .ok g) : ∃ ls, l = .ok ls ∧ ls ≠ [] ∧ mean ls = g := by
  rcases local_eval (kw := kw) hk hn with ⟨x, h1, h2⟩ | ⟨p, h1, h2⟩
  · rw [h1] at hg; cases hg
  · rw [h2] at h; rw [h1] at hg
    exact est_exists (e := ⟨⟨k, f⟩, data, c, p⟩) hf hd h hg

end Verif
