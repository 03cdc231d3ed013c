import Verif.Lemmas.StatTest

/-! # C41: statistical tests leave the estimator unchanged -/

namespace Verif

section MI
variable {D G : Type}

theorem mi_calculate_data (comp : MICalc D G) (extract : List D → Except Exc (List ℝ))
    (o : EstObj (MIInner D G) ℝ) :
    (o.calculate (miCode comp extract)).2.inner.data = o.inner.data := by
  unfold EstObj.calculate
  simp only [miCode]
  cases hc : (comp o.inner.data o.inner.rng).1 with
  | error e => rfl
  | ok q => cases q <;> rfl

theorem mi_globalVal_data (comp : MICalc D G) (extract : List D → Except Exc (List ℝ))
    (o : EstObj (MIInner D G) ℝ) :
    (o.globalVal (miCode comp extract)).2.inner.data = o.inner.data := by
  have h := mi_calculate_data comp extract o
  unfold EstObj.globalVal
  split
  · rfl
  · cases hc : o.calculate (miCode comp extract) with
    | mk r o' =>
      rw [hc] at h
      cases r with
      | error e => exact h
      | ok u => simp only; split <;> exact h

/-- the computation does not depend on the random generator: it is the function `f` of the data -/
def DetMI (comp : MICalc D G) (f : List D → Except Exc (CalcRes ℝ)) : Prop := ∀ d g, (comp d g).1 = f d

/-- a new object -/
def freshMI (data : List D) (g : G) : EstObj (MIInner D G) ℝ := ⟨⟨data, none, g⟩, none, none⟩

/-- public meaning of a result: number, or mean of the local values, or RuntimeError -/
noncomputable def meaning : Except Exc (CalcRes ℝ) → Except Exc ℝ
  | .error e => .error e
  | .ok (.scalar v) => .ok v
  | .ok (.array1 xs) => .ok (npMean xs)
  | .ok (.arrayNd _) => .error .runtimeError
  | .ok .other => .error .runtimeError

/-- the object has the original data and its cache, if filled, is right -/
def GoodMI (f : List D → Except Exc (CalcRes ℝ)) (data : List D) (o : EstObj (MIInner D G) ℝ) : Prop :=
  o.inner.data = data ∧ ∀ v, o.resGlobal = some v → meaning (f data) = .ok v

theorem good_calculate (comp : MICalc D G) (extract : List D → Except Exc (List ℝ))
    {f : List D → Except Exc (CalcRes ℝ)} (hf : DetMI comp f) {data : List D}
    {o : EstObj (MIInner D G) ℝ} (h : GoodMI f data o) :
    GoodMI f data (o.calculate (miCode comp extract)).2 ∧
    (o.calculate (miCode comp extract)).1 = (meaning (f data)).map (fun _ => ()) ∧
    (∀ v, meaning (f data) = .ok v → (o.calculate (miCode comp extract)).2.resGlobal = some v) := by
  obtain ⟨hd, hv⟩ := h
  have h1 := mi_calculate_data comp extract o
  have hc : (comp o.inner.data o.inner.rng).1 = f data := by rw [hf, hd]
  unfold EstObj.calculate at h1 ⊢
  simp only [miCode] at h1 ⊢
  rw [hc] at h1 ⊢
  cases hm : f data with
  | error e =>
    rw [hm] at h1
    refine ⟨⟨hd, fun v hg => ?_⟩, rfl, fun v h => (by cases h)⟩
    have := hv v hg
    rw [hm] at this; cases this
  | ok q =>
    rw [hm] at h1
    cases q with
    | array1 xs =>
      refine ⟨⟨hd, fun v hg => ?_⟩, rfl, fun v h => ?_⟩
      · rw [hm]; simp only [Option.some.injEq] at hg; rw [← hg]; rfl
      · cases h; rfl
    | arrayNd xs =>
      refine ⟨⟨hd, fun v hg => ?_⟩, rfl, fun v h => (by cases h)⟩
      have := hv v hg
      rw [hm] at this; cases this
    | scalar w =>
      refine ⟨⟨hd, fun v hg => ?_⟩, rfl, fun v h => ?_⟩
      · rw [hm]; simp only [Option.some.injEq] at hg; rw [← hg]; rfl
      · cases h; rfl
    | other =>
      refine ⟨⟨hd, fun v hg => ?_⟩, rfl, fun v h => (by cases h)⟩
      have := hv v hg
      rw [hm] at this; cases this

theorem good_globalVal (comp : MICalc D G) (extract : List D → Except Exc (List ℝ))
    {f : List D → Except Exc (CalcRes ℝ)} (hf : DetMI comp f) {data : List D}
    {o : EstObj (MIInner D G) ℝ} (h : GoodMI f data o) :
    GoodMI f data (o.globalVal (miCode comp extract)).2 ∧
    (o.globalVal (miCode comp extract)).1 = meaning (f data) := by
  cases hg : o.resGlobal with
  | some v => rw [globalVal_cached _ hg]; exact ⟨h, (h.2 v hg).symm⟩
  | none =>
    obtain ⟨h1, h2, h3⟩ := good_calculate comp extract hf h
    unfold EstObj.globalVal
    simp only [hg]
    cases hc : o.calculate (miCode comp extract) with
    | mk r o' =>
      rw [hc] at h1 h2 h3
      cases hm : meaning (f data) with
      | error e =>
        simp only [hm] at h2
        cases h2
        exact ⟨h1, rfl⟩
      | ok v =>
        simp only [hm] at h2
        cases h2
        have := h3 v hm
        simp only [Except.map] at this ⊢
        rw [this]
        exact ⟨h1, rfl⟩

theorem good_step (comp : MICalc D G) (extract : List D → Except Exc (List ℝ))
    {f : List D → Except Exc (CalcRes ℝ)} (hf : DetMI comp f) {data : List D}
    {o : EstObj (MIInner D G) ℝ} (h : GoodMI f data o) (a : Acc) :
    GoodMI f data (o.step (miCode comp extract) a).2 := by
  cases a with
  | calculate => exact (good_calculate comp extract hf h).1
  | result => exact (good_globalVal comp extract hf h).1
  | globalVal => exact (good_globalVal comp extract hf h).1
  | localVals =>
    have h1 := (good_globalVal comp extract hf h).1
    simp only [EstObj.step]
    unfold EstObj.localVals
    cases hc : o.globalVal (miCode comp extract) with
    | mk r o' =>
      rw [hc] at h1
      cases r with
      | error e => exact h1
      | ok v =>
        simp only
        split
        · exact h1
        · simp only [miCode]
          cases extract o'.inner.data <;> exact h1

theorem mi_test_inner (comp : MICalc D G) (extract : List D → Except Exc (List ℝ))
    (R : Resampler D G) (cfg : Settings) (nT : Option PyArg) (m : Option String)
    (o : EstObj (MIInner D G) ℝ) :
    (statisticalTestMI comp extract R cfg nT m o).2.inner.data =
      (statTestMI comp R cfg nT m o.inner).2.data := by
  unfold statisticalTestMI
  cases ht : statTestMI comp R cfg nT m o.inner with
  | mk x s =>
    cases x with
    | error e => rfl
    | ok p =>
      have := mi_globalVal_data comp extract { o with inner := s }
      simp only
      split
      · rename_i hq; rw [hq] at this; exact this
      · rename_i hq; rw [hq] at this; exact this

theorem mi_effective_inner (comp : MICalc D G) (extract : List D → Except Exc (List ℝ))
    (R : Resampler D G) (cfg : Settings) (m : Option String) (o : EstObj (MIInner D G) ℝ) :
    (effectiveValMI comp extract R cfg m o).2.inner.data =
      (statTestMI comp R cfg (some (.int 1)) m o.inner).2.data := by
  unfold effectiveValMI
  cases ht : statTestMI comp R cfg (some (.int 1)) m o.inner with
  | mk x s =>
    cases x with
    | error e => rfl
    | ok p =>
      have := mi_globalVal_data comp extract { o with inner := s }
      simp only
      split
      · rename_i hq; rw [hq] at this; exact this
      · rename_i hq; rw [hq] at this; exact this

/-- **C41** A successful statistical test or effective value leaves the data of a mutual-information
object as they were, for every computation (also a randomised one), generator and argument. -/
theorem C41_mi_successful_test_restores_data (comp : MICalc D G)
    (extract : List D → Except Exc (List ℝ)) (R : Resampler D G) (cfg : Settings)
    (o : EstObj (MIInner D G) ℝ) :
    (∀ nT m r, (statisticalTestMI comp extract R cfg nT m o).1 = .ok r →
      (statisticalTestMI comp extract R cfg nT m o).2.inner.data = o.inner.data) ∧
    (∀ m v, (effectiveValMI comp extract R cfg m o).1 = .ok v →
      (effectiveValMI comp extract R cfg m o).2.inner.data = o.inner.data) := by
  constructor
  · intro nT m r h
    rw [mi_test_inner]
    have hs := (statTestMI_spec comp R cfg nT m o.inner).1
    unfold statisticalTestMI at h
    cases ht : statTestMI comp R cfg nT m o.inner with
    | mk x s =>
      rw [ht] at h hs
      cases x with
      | error e => cases h
      | ok p => exact (hs p.1 p.2.1 p.2.2 rfl).2.2.2.2.2
  · intro m v h
    rw [mi_effective_inner]
    have hs := (statTestMI_spec comp R cfg (some (.int 1)) m o.inner).1
    unfold effectiveValMI at h
    cases ht : statTestMI comp R cfg (some (.int 1)) m o.inner with
    | mk x s =>
      rw [ht] at h hs
      cases x with
      | error e => cases h
      | ok p => exact (hs p.1 p.2.1 p.2.2 rfl).2.2.2.2.2

/-- the history of calls with their outcomes, and the object afterwards -/
noncomputable def historyMI (comp : MICalc D G) (extract : List D → Except Exc (List ℝ))
    (R : Resampler D G) (cfg : Settings) :
    List TestOp → EstObj (MIInner D G) ℝ → List (TestOp × Except Exc TestOut) × EstObj (MIInner D G) ℝ
  | [], o => ([], o)
  | op :: ops, o =>
    let r := stepMI comp extract R cfg o op
    let rest := historyMI comp extract R cfg ops r.2
    ((op, r.1) :: rest.1, rest.2)

theorem good_test (comp : MICalc D G) (extract : List D → Except Exc (List ℝ))
    (R : Resampler D G) (cfg : Settings)
    {f : List D → Except Exc (CalcRes ℝ)} (hf : DetMI comp f) {data : List D}
    {o : EstObj (MIInner D G) ℝ} (h : GoodMI f data o) (nT : Option PyArg) (m : Option String)
    (hd : (statTestMI comp R cfg nT m o.inner).2.data = o.inner.data) :
    GoodMI f data (statisticalTestMI comp extract R cfg nT m o).2 ∧
    GoodMI f data (match statTestMI comp R cfg nT m o.inner with
      | (.error e, s) => ((.error e, { o with inner := s }) : Except Exc ℝ × EstObj (MIInner D G) ℝ)
      | (.ok (_, _, vs), s) =>
        match EstObj.globalVal (miCode comp extract) { o with inner := s } with
        | (.error e, o') => (.error e, o')
        | (.ok v, o') => (.ok (v - vs.headD 0), o')).2 := by
  unfold statisticalTestMI
  cases ht : statTestMI comp R cfg nT m o.inner with
  | mk x s =>
    rw [ht] at hd
    have hg : GoodMI f data ({ o with inner := s } : EstObj (MIInner D G) ℝ) :=
      ⟨hd.trans h.1, h.2⟩
    cases x with
    | error e => exact ⟨hg, hg⟩
    | ok p =>
      have h1 := (good_globalVal comp extract hf hg).1
      simp only
      cases hq : EstObj.globalVal (miCode comp extract) ({ o with inner := s } : EstObj (MIInner D G) ℝ) with
      | mk r o' =>
        rw [hq] at h1
        cases r <;> exact ⟨h1, h1⟩

theorem good_history (comp : MICalc D G) (extract : List D → Except Exc (List ℝ))
    (R : Resampler D G) (cfg : Settings)
    {f : List D → Except Exc (CalcRes ℝ)} (hf : DetMI comp f) {data : List D} (ops : List TestOp)
    {o : EstObj (MIInner D G) ℝ} (h : GoodMI f data o)
    (hops : ∀ p ∈ (historyMI comp extract R cfg ops o).1,
      (∃ a, p.1 = .acc a) ∨ ∃ v, p.2 = .ok v) :
    GoodMI f data (historyMI comp extract R cfg ops o).2 := by
  induction ops generalizing o with
  | nil => exact h
  | cons op ops ih =>
    have hp := hops (op, (stepMI comp extract R cfg o op).1) (by simp [historyMI])
    refine ih (o := (stepMI comp extract R cfg o op).2) ?_
      (fun p hp => hops p (by simp only [historyMI, List.mem_cons]; exact Or.inr hp))
    cases op with
    | acc a => exact good_step comp extract hf h a
    | test nT m =>
      rcases hp with ⟨a, ha⟩ | ⟨v, hv⟩
      · cases ha
      · have hr : ∃ r, (statisticalTestMI comp extract R cfg nT m o).1 = .ok r := by
          simp only [stepMI] at hv
          cases hx : (statisticalTestMI comp extract R cfg nT m o).1 with
          | error e => rw [hx] at hv; cases hv
          | ok r => exact ⟨r, rfl⟩
        obtain ⟨r, hr⟩ := hr
        have := (C41_mi_successful_test_restores_data comp extract R cfg o).1 nT m r hr
        rw [mi_test_inner] at this
        exact (good_test comp extract R cfg hf h nT m this).1
    | effective m =>
      rcases hp with ⟨a, ha⟩ | ⟨v, hv⟩
      · cases ha
      · have hr : ∃ r, (effectiveValMI comp extract R cfg m o).1 = .ok r := by
          simp only [stepMI] at hv
          cases hx : (effectiveValMI comp extract R cfg m o).1 with
          | error e => rw [hx] at hv; cases hv
          | ok r => exact ⟨r, rfl⟩
        obtain ⟨r, hr⟩ := hr
        have := (C41_mi_successful_test_restores_data comp extract R cfg o).2 m r hr
        rw [mi_effective_inner] at this
        exact (good_test comp extract R cfg hf h (some (.int 1)) m this).2

/-- **C41** For a deterministic computation, any history of result queries, recalculations, statistical
tests and effective values in which no test raised an exception leaves the result that of a new object. -/
theorem C41_mi_result_unaffected_by_history (comp : MICalc D G)
    (extract : List D → Except Exc (List ℝ)) (R : Resampler D G) (cfg : Settings)
    (f : List D → Except Exc (CalcRes ℝ)) (hf : DetMI comp f) (data : List D) (g : G)
    (ops : List TestOp)
    (hops : ∀ p ∈ (historyMI comp extract R cfg ops (freshMI data g)).1,
      (∃ a, p.1 = .acc a) ∨ ∃ v, p.2 = .ok v) :
    (stepMI comp extract R cfg (historyMI comp extract R cfg ops (freshMI data g)).2 (.acc .result)).1 =
    (stepMI comp extract R cfg (freshMI data g) (.acc .result)).1 := by
  have h0 : GoodMI f data (freshMI data g : EstObj (MIInner D G) ℝ) := ⟨rfl, fun v hv => (by cases hv)⟩
  have h1 := good_history comp extract R cfg hf ops h0 hops
  simp only [stepMI, EstObj.step, EstObj.result]
  rw [(good_globalVal comp extract hf h1).2, (good_globalVal comp extract hf h0).2]

/-- a computation that always succeeds -/
def TotalMI (comp : MICalc D G) : Prop := ∀ d g, ∃ v, (comp d g).1 = .ok v ∧ ∃ x, testValue v = .ok x

theorem miLoop_total (comp : MICalc D G) (rs : D → G → D × G) (ht : TotalMI comp) (n : Nat)
    (s : MIInner D G) (x y : D) (h : s.orig = some [x, y]) : ∃ vs, (miLoop comp rs n s).1 = .ok vs := by
  induction n generalizing s with
  | zero => exact ⟨[], rfl⟩
  | succ n ih =>
    have h2 := miSelection_orig comp rs s
    have h1 : ∃ v, (miSelection comp rs s).1 = .ok v := by
      unfold miSelection
      rw [h]
      simp only
      obtain ⟨v, hv, x', hx⟩ := ht [(rs x s.rng).1, y] (rs x s.rng).2
      split
      · rename_i hc; rw [hc] at hv; cases hv
      · rename_i hc; rw [hc] at hv; cases hv; exact ⟨x', hx⟩
    obtain ⟨v, hv⟩ := h1
    unfold miLoop
    cases hm : miSelection comp rs s with
    | mk r s1 =>
      rw [hm] at hv h2
      cases r with
      | error e => cases hv
      | ok w =>
        obtain ⟨vs, hvs⟩ := ih s1 (h2.trans h)
        simp only
        cases hl : miLoop comp rs n s1 with
        | mk r2 s2 =>
          rw [hl] at hvs
          cases r2 with
          | error e => cases hvs
          | ok ws => exact ⟨_, rfl⟩

theorem statTestMI_total (comp : MICalc D G) (R : Resampler D G) (ht : TotalMI comp) (cfg : Settings)
    (nT : Option PyArg) (m : Option String) (s : MIInner D G) :
    (statTestMI comp R cfg nT m s).2.data = s.data := by
  obtain ⟨-, h⟩ := statTestMI_spec comp R cfg nT m s
  rcases h with h | ⟨x, y, x', e, hd, h2, h3⟩
  · exact h
  · unfold statTestMI at h3 ⊢
    cases ha : testArgs cfg nT m with
    | error e => rfl
    | ok p =>
      obtain ⟨n, m'⟩ := p
      rw [ha] at h3
      have hl : s.data.length = 2 := by rw [hd]; rfl
      simp only [ne_eq, hl, not_true_eq_false, if_false] at h3 ⊢
      unfold testMI at h3 ⊢
      have key : ∀ rs, ∃ vs s1, miLoop comp rs n.toNat { s with orig := some s.data } = (.ok vs, s1) ∧
          s1.orig = some s.data := by
        intro rs
        obtain ⟨vs, hv⟩ := miLoop_total comp rs ht n.toNat { s with orig := some s.data } x y (by rw [hd])
        exact ⟨vs, _, Prod.ext hv rfl, miLoop_orig comp rs n.toNat { s with orig := some s.data }⟩
      by_cases h1 : m' = "permutation_test"
      · obtain ⟨vs, s1, hm, ho⟩ := key R.permute
        simp only [h1, if_true, hm, ho, Option.getD_some]
      · by_cases h2 : m' = "bootstrap"
        · obtain ⟨vs, s1, hm, ho⟩ := key R.choice
          simp only [h2, if_true, hm, ho, Option.getD_some]
          rw [if_neg (by decide)]
        · simp only [h1, h2, if_false]

/-- **C41** If the computation is deterministic and never fails, the result is that of a new object after
*every* history, including tests called with invalid arguments. -/
theorem C41_mi_result_unaffected_total (comp : MICalc D G)
    (extract : List D → Except Exc (List ℝ)) (R : Resampler D G) (cfg : Settings)
    (f : List D → Except Exc (CalcRes ℝ)) (hf : DetMI comp f) (ht : TotalMI comp) (data : List D) (g : G)
    (ops : List TestOp) :
    (stepMI comp extract R cfg (historyMI comp extract R cfg ops (freshMI data g)).2 (.acc .result)).1 =
    (stepMI comp extract R cfg (freshMI data g) (.acc .result)).1 := by
  have h0 : GoodMI f data (freshMI data g : EstObj (MIInner D G) ℝ) := ⟨rfl, fun v hv => (by cases hv)⟩
  have h1 : ∀ (ops : List TestOp) (o : EstObj (MIInner D G) ℝ), GoodMI f data o →
      GoodMI f data (historyMI comp extract R cfg ops o).2 := by
    intro ops
    induction ops with
    | nil => exact fun o h => h
    | cons op ops ih =>
      intro o h
      refine ih _ ?_
      cases op with
      | acc a => exact good_step comp extract hf h a
      | test nT m =>
        exact (good_test comp extract R cfg hf h nT m (statTestMI_total comp R ht cfg nT m o.inner)).1
      | effective m =>
        exact (good_test comp extract R cfg hf h (some (.int 1)) m
          (statTestMI_total comp R ht cfg _ m o.inner)).2
  have h2 := h1 ops _ h0
  simp only [stepMI, EstObj.step, EstObj.result]
  rw [(good_globalVal comp extract hf h2).2, (good_globalVal comp extract hf h0).2]

example (extract : List (List Int) → Except Exc (List ℝ)) (R : Resampler (List Int) Nat) (cfg : Settings) :=
  C41_mi_result_unaffected_total (fun d g => (.ok (.scalar (((d.headD [] : List Int).sum : Int) : ℝ)), g + 1)) extract R cfg
    (fun d => .ok (.scalar (((d.headD [] : List Int).sum : Int) : ℝ))) (fun _ _ => rfl) (fun _ _ => ⟨_, rfl, _, rfl⟩) [[1, 2], [0, 3]] 7
    [.acc .result, .test (some (.int 3)) none, .effective none]

/-- **C41** Whatever happens, the second variable is never changed, and if the data differ afterwards then
the call raised an exception. -/
theorem C41_mi_only_failure_changes_data (comp : MICalc D G)
    (extract : List D → Except Exc (List ℝ)) (R : Resampler D G) (cfg : Settings)
    (nT : Option PyArg) (m : Option String) (o : EstObj (MIInner D G) ℝ) :
    (statisticalTestMI comp extract R cfg nT m o).2.inner.data = o.inner.data ∨
    ∃ x y x' e, o.inner.data = [x, y] ∧
      (statisticalTestMI comp extract R cfg nT m o).2.inner.data = [x', y] ∧
      (statisticalTestMI comp extract R cfg nT m o).1 = .error e := by
  rw [mi_test_inner]
  rcases (statTestMI_spec comp R cfg nT m o.inner).2 with h | ⟨x, y, x', e, h1, h2, h3⟩
  · exact Or.inl h
  · refine Or.inr ⟨x, y, x', e, h1, h2, ?_⟩
    unfold statisticalTestMI
    cases ht : statTestMI comp R cfg nT m o.inner with
    | mk r s =>
      rw [ht] at h3
      cases r with
      | error e' => cases h3; rfl
      | ok p => cases h3

/-! ### Interruption -/

/-- A computation `f` that is interrupted once, at its `k`-th evaluation (counted by the generator state):
memory error, keyboard interrupt, … -/
def interruptedMI (f : List D → ℝ) (k : Nat) : MICalc D Nat := fun d g =>
  (if g = k then .error .runtimeError else .ok (.scalar (f d)), g + 1)

/-- a resampler that applies a fixed rearrangement -/
def fixedResampler {G : Type} (p : D → D) : Resampler D G := ⟨fun x g => (p x, g), fun x g => (p x, g)⟩

theorem interrupted_loop (f : List D → ℝ) (p : D → D) (x y : D) (k : Nat) :
    ∀ (j n : Nat) (dd : List D), j + (n + 1) > k → j ≤ k →
      miLoop (interruptedMI f k) (fun x g => (p x, g)) (n + 1) ⟨dd, some [x, y], j⟩ =
        (.error .runtimeError, ⟨[p x, y], some [x, y], k + 1⟩) := by
  intro j n
  induction n generalizing j with
  | zero =>
    intro dd h1 h2
    have : j = k := by omega
    subst this
    simp [miLoop, miSelection, interruptedMI]
  | succ n ih =>
    intro dd h1 h2
    by_cases hj : j = k
    · subst hj
      simp [miLoop, miSelection, interruptedMI]
    · rw [miLoop]
      have : miSelection (interruptedMI f k) (fun x g => (p x, g)) ⟨dd, some [x, y], j⟩ =
          (.ok (f [p x, y]), ⟨[p x, y], some [x, y], j + 1⟩) := by
        simp [miSelection, interruptedMI, hj, testValue]
      rw [this]
      simp only
      rw [ih (j + 1) [p x, y] (by omega) (by omega)]

/-- **C41** (negative) An interruption at any of the `n` evaluations leaves the resampled data in the
object: the next `result` is the value of the rearranged first variable, not of the user's data — and a
later successful test keeps it that way. -/
theorem C41_mi_interruption_corrupts_object (f : List D → ℝ) (p : D → D) (x y : D) (k n : Nat)
    (hk : k < n) (extract : List D → Except Exc (List ℝ)) (cfg : Settings) :
    let c := interruptedMI f k
    let R : Resampler D Nat := fixedResampler p
    let o := (statisticalTestMI c extract R cfg (some (.int n)) (some "permutation_test")
      (freshMI [x, y] 0)).2
    (statisticalTestMI c extract R cfg (some (.int n)) (some "permutation_test")
      (freshMI [x, y] 0)).1 = .error .runtimeError ∧
    o.inner.data = [p x, y] ∧
    (stepMI c extract R cfg o (.acc .result)).1 = .ok (.acc (.num (f [p x, y]))) ∧
    (∀ nT m r, (statisticalTestMI c extract R cfg nT m o).1 = .ok r →
      (statisticalTestMI c extract R cfg nT m o).2.inner.data = [p x, y]) := by
  intro c R o
  have hargs : testArgs cfg (some (.int n)) (some "permutation_test") = .ok ((n : Int), "permutation_test") := by
    have : (PyArg.int (n : Int)).posInt = true := by simp [PyArg.posInt]; omega
    simp only [testArgs, nTestsArg, methodArg, bind, Except.bind, this, if_true, PyArg.val]
    rfl
  have ht : statTestMI c R cfg (some (.int n)) (some "permutation_test") ⟨[x, y], none, 0⟩ =
      (.error .runtimeError, ⟨[p x, y], some [x, y], k + 1⟩) := by
    unfold statTestMI
    rw [hargs]
    simp only [List.length_cons, List.length_nil, ne_eq, not_true_eq_false, if_false, Int.toNat_natCast]
    unfold testMI
    simp only [if_true]
    obtain ⟨n', rfl⟩ : ∃ n', n = n' + 1 := ⟨n - 1, by omega⟩
    have := interrupted_loop f p x y k 0 n' [x, y] (by omega) (by omega)
    simp only [c, R, fixedResampler]
    rw [this]
  have hall : statisticalTestMI c extract R cfg (some (.int n)) (some "permutation_test")
      (freshMI [x, y] 0) = (.error .runtimeError, ⟨⟨[p x, y], some [x, y], k + 1⟩, none, none⟩) := by
    unfold statisticalTestMI freshMI
    simp only [ht]
  have ho : o = ⟨⟨[p x, y], some [x, y], k + 1⟩, none, none⟩ := by
    show (statisticalTestMI _ _ _ _ _ _ _).2 = _
    rw [hall]
  refine ⟨by rw [hall], by rw [ho], ?_, ?_⟩
  · rw [ho]
    have hne : ¬ (k + 1 = k) := by omega
    simp [stepMI, EstObj.step, EstObj.result, EstObj.globalVal, EstObj.calculate, miCode, c,
      interruptedMI, Except.map]
  · intro nT m r h
    rw [(C41_mi_successful_test_restores_data c extract R cfg o).1 nT m r h, ho]

/-- the hypotheses of the negative theorem are met, and the value really differs -/
example : ∃ (f : List Nat → ℝ) (p : Nat → Nat), (3 < 5) ∧ f [p 1, 0] ≠ f [1, 0] :=
  ⟨fun d => (d.headD 0 : ℝ), fun x => x + 1, by norm_num, by norm_num⟩

end MI

section TE
variable {G : Type}

theorem te_calculate_flags (comp : TECalc G) (extract : TEFlags → Except Exc (List ℝ))
    (o : EstObj (TEInner G) ℝ) :
    (o.calculate (teCode comp extract)).2.inner.flags = o.inner.flags := by
  unfold EstObj.calculate
  simp only [teCode]
  cases hc : (comp o.inner.flags o.inner.rng).1 with
  | error e => rfl
  | ok q => cases q <;> rfl

theorem te_globalVal_flags (comp : TECalc G) (extract : TEFlags → Except Exc (List ℝ))
    (o : EstObj (TEInner G) ℝ) :
    (o.globalVal (teCode comp extract)).2.inner.flags = o.inner.flags := by
  have h := te_calculate_flags comp extract o
  unfold EstObj.globalVal
  split
  · rfl
  · cases hc : o.calculate (teCode comp extract) with
    | mk r o' =>
      rw [hc] at h
      cases r with
      | error e => exact h
      | ok u => simp only; split <;> exact h

theorem te_test_inner (comp : TECalc G) (extract : TEFlags → Except Exc (List ℝ)) (cfg : Settings)
    (nT : Option PyArg) (m : Option String) (o : EstObj (TEInner G) ℝ) :
    (statisticalTestTE comp extract cfg nT m o).2.inner.flags =
      (statTestTE comp cfg nT m o.inner).2.flags := by
  unfold statisticalTestTE
  cases ht : statTestTE comp cfg nT m o.inner with
  | mk x s =>
    cases x with
    | error e => rfl
    | ok p =>
      have := te_globalVal_flags comp extract { o with inner := s }
      simp only
      split
      · rename_i hq; rw [hq] at this; exact this
      · rename_i hq; rw [hq] at this; exact this

theorem te_effective_inner (comp : TECalc G) (extract : TEFlags → Except Exc (List ℝ)) (cfg : Settings)
    (m : Option String) (o : EstObj (TEInner G) ℝ) :
    (effectiveValTE comp extract cfg m o).2.inner.flags =
      (statTestTE comp cfg (some (.int 1)) m o.inner).2.flags := by
  unfold effectiveValTE
  cases ht : statTestTE comp cfg (some (.int 1)) m o.inner with
  | mk x s =>
    cases x with
    | error e => rfl
    | ok p =>
      have := te_globalVal_flags comp extract { o with inner := s }
      simp only
      split
      · rename_i hq; rw [hq] at this; exact this
      · rename_i hq; rw [hq] at this; exact this

/-- **C41** A successful test or effective value resets the resampling flags of a transfer-entropy
object, whatever they were before. -/
theorem C41_te_successful_test_resets_flags (comp : TECalc G) (extract : TEFlags → Except Exc (List ℝ))
    (cfg : Settings) (o : EstObj (TEInner G) ℝ) :
    (∀ nT m r, (statisticalTestTE comp extract cfg nT m o).1 = .ok r →
      (statisticalTestTE comp extract cfg nT m o).2.inner.flags = {}) ∧
    (∀ m v, (effectiveValTE comp extract cfg m o).1 = .ok v →
      (effectiveValTE comp extract cfg m o).2.inner.flags = {}) := by
  constructor
  · intro nT m r h
    rw [te_test_inner]
    have hs := (statTestTE_spec comp cfg nT m o.inner).1
    unfold statisticalTestTE at h
    cases ht : statTestTE comp cfg nT m o.inner with
    | mk x s =>
      rw [ht] at h hs
      cases x with
      | error e => cases h
      | ok p => exact (hs p.1 p.2.1 p.2.2 rfl).2.2.2.2
  · intro m v h
    rw [te_effective_inner]
    have hs := (statTestTE_spec comp cfg (some (.int 1)) m o.inner).1
    unfold effectiveValTE at h
    cases ht : statTestTE comp cfg (some (.int 1)) m o.inner with
    | mk x s =>
      rw [ht] at h hs
      cases x with
      | error e => cases h
      | ok p => exact (hs p.1 p.2.1 p.2.2 rfl).2.2.2.2

/-- without resampling the computation does not depend on the generator -/
def DetTE (comp : TECalc G) (r : Except Exc (CalcRes ℝ)) : Prop := ∀ g, (comp {} g).1 = r

/-- a new object -/
def freshTE (g : G) : EstObj (TEInner G) ℝ := ⟨⟨{}, g⟩, none, none⟩

/-- the flags are off and the cache, if filled, is right -/
def GoodTE (r : Except Exc (CalcRes ℝ)) (o : EstObj (TEInner G) ℝ) : Prop :=
  o.inner.flags = {} ∧ ∀ v, o.resGlobal = some v → meaning r = .ok v

theorem goodTE_calculate (comp : TECalc G) (extract : TEFlags → Except Exc (List ℝ))
    {q : Except Exc (CalcRes ℝ)} (hf : DetTE comp q) {o : EstObj (TEInner G) ℝ} (h : GoodTE q o) :
    GoodTE q (o.calculate (teCode comp extract)).2 ∧
    (o.calculate (teCode comp extract)).1 = (meaning q).map (fun _ => ()) ∧
    (∀ v, meaning q = .ok v → (o.calculate (teCode comp extract)).2.resGlobal = some v) := by
  obtain ⟨hd, hv⟩ := h
  have hc : (comp o.inner.flags o.inner.rng).1 = q := by rw [hd, hf]
  unfold EstObj.calculate
  simp only [teCode]
  rw [hc]
  cases q with
  | error e =>
    refine ⟨⟨hd, fun v hg => ?_⟩, rfl, fun v h => (by cases h)⟩
    have := hv v hg
    cases this
  | ok w =>
    cases w with
    | array1 xs =>
      refine ⟨⟨hd, fun v hg => ?_⟩, rfl, fun v h => ?_⟩
      · simp only [Option.some.injEq] at hg; rw [← hg]; rfl
      · cases h; rfl
    | arrayNd xs =>
      refine ⟨⟨hd, fun v hg => ?_⟩, rfl, fun v h => (by cases h)⟩
      have := hv v hg
      cases this
    | scalar w =>
      refine ⟨⟨hd, fun v hg => ?_⟩, rfl, fun v h => ?_⟩
      · simp only [Option.some.injEq] at hg; rw [← hg]; rfl
      · cases h; rfl
    | other =>
      refine ⟨⟨hd, fun v hg => ?_⟩, rfl, fun v h => (by cases h)⟩
      have := hv v hg
      cases this

theorem goodTE_globalVal (comp : TECalc G) (extract : TEFlags → Except Exc (List ℝ))
    {q : Except Exc (CalcRes ℝ)} (hf : DetTE comp q) {o : EstObj (TEInner G) ℝ} (h : GoodTE q o) :
    GoodTE q (o.globalVal (teCode comp extract)).2 ∧
    (o.globalVal (teCode comp extract)).1 = meaning q := by
  cases hg : o.resGlobal with
  | some v => rw [globalVal_cached _ hg]; exact ⟨h, (h.2 v hg).symm⟩
  | none =>
    obtain ⟨h1, h2, h3⟩ := goodTE_calculate comp extract hf h
    unfold EstObj.globalVal
    simp only [hg]
    cases hc : o.calculate (teCode comp extract) with
    | mk r o' =>
      rw [hc] at h1 h2 h3
      cases hm : meaning q with
      | error e =>
        simp only [hm] at h2
        cases h2
        exact ⟨h1, rfl⟩
      | ok v =>
        simp only [hm] at h2
        cases h2
        have := h3 v hm
        simp only [Except.map] at this ⊢
        rw [this]
        exact ⟨h1, rfl⟩

theorem goodTE_step (comp : TECalc G) (extract : TEFlags → Except Exc (List ℝ))
    {q : Except Exc (CalcRes ℝ)} (hf : DetTE comp q) {o : EstObj (TEInner G) ℝ} (h : GoodTE q o)
    (a : Acc) : GoodTE q (o.step (teCode comp extract) a).2 := by
  cases a with
  | calculate => exact (goodTE_calculate comp extract hf h).1
  | result => exact (goodTE_globalVal comp extract hf h).1
  | globalVal => exact (goodTE_globalVal comp extract hf h).1
  | localVals =>
    have h1 := (goodTE_globalVal comp extract hf h).1
    simp only [EstObj.step]
    unfold EstObj.localVals
    cases hc : o.globalVal (teCode comp extract) with
    | mk r o' =>
      rw [hc] at h1
      cases r with
      | error e => exact h1
      | ok v =>
        simp only
        split
        · exact h1
        · simp only [teCode]
          cases extract o'.inner.flags <;> exact h1

theorem goodTE_test (comp : TECalc G) (extract : TEFlags → Except Exc (List ℝ)) (cfg : Settings)
    {q : Except Exc (CalcRes ℝ)} (hf : DetTE comp q) {o : EstObj (TEInner G) ℝ}
    (h : ∀ v, o.resGlobal = some v → meaning q = .ok v) (nT : Option PyArg) (m : Option String)
    (hd : (statTestTE comp cfg nT m o.inner).2.flags = {}) :
    GoodTE q (statisticalTestTE comp extract cfg nT m o).2 ∧
    GoodTE q (match statTestTE comp cfg nT m o.inner with
      | (.error e, s) => ((.error e, { o with inner := s }) : Except Exc ℝ × EstObj (TEInner G) ℝ)
      | (.ok (_, _, vs), s) =>
        match EstObj.globalVal (teCode comp extract) { o with inner := s } with
        | (.error e, o') => (.error e, o')
        | (.ok v, o') => (.ok (v - vs.headD 0), o')).2 := by
  unfold statisticalTestTE
  cases ht : statTestTE comp cfg nT m o.inner with
  | mk x s =>
    rw [ht] at hd
    have hg : GoodTE q ({ o with inner := s } : EstObj (TEInner G) ℝ) := ⟨hd, h⟩
    cases x with
    | error e => exact ⟨hg, hg⟩
    | ok p =>
      have h1 := (goodTE_globalVal comp extract hf hg).1
      simp only
      cases hq : EstObj.globalVal (teCode comp extract) ({ o with inner := s } : EstObj (TEInner G) ℝ) with
      | mk r o' =>
        rw [hq] at h1
        cases r <;> exact ⟨h1, h1⟩

/-- the history of calls with their outcomes, and the object afterwards -/
noncomputable def historyTE (comp : TECalc G) (extract : TEFlags → Except Exc (List ℝ)) (cfg : Settings) :
    List TestOp → EstObj (TEInner G) ℝ → List (TestOp × Except Exc TestOut) × EstObj (TEInner G) ℝ
  | [], o => ([], o)
  | op :: ops, o =>
    let r := stepTE comp extract cfg o op
    let rest := historyTE comp extract cfg ops r.2
    ((op, r.1) :: rest.1, rest.2)

/-- **C41** For a computation that is deterministic without resampling, any history of result queries,
recalculations, statistical tests and effective values in which no test raised leaves the result that of
a new transfer-entropy object. -/
theorem C41_te_result_unaffected_by_history (comp : TECalc G)
    (extract : TEFlags → Except Exc (List ℝ)) (cfg : Settings)
    (q : Except Exc (CalcRes ℝ)) (hf : DetTE comp q) (g : G) (ops : List TestOp)
    (hops : ∀ p ∈ (historyTE comp extract cfg ops (freshTE g)).1,
      (∃ a, p.1 = .acc a) ∨ ∃ v, p.2 = .ok v) :
    (stepTE comp extract cfg (historyTE comp extract cfg ops (freshTE g)).2 (.acc .result)).1 =
    (stepTE comp extract cfg (freshTE g) (.acc .result)).1 := by
  have h0 : GoodTE q (freshTE g : EstObj (TEInner G) ℝ) := ⟨rfl, fun v hv => (by cases hv)⟩
  have h1 : ∀ (ops : List TestOp) (o : EstObj (TEInner G) ℝ), GoodTE q o →
      (∀ p ∈ (historyTE comp extract cfg ops o).1, (∃ a, p.1 = .acc a) ∨ ∃ v, p.2 = .ok v) →
      GoodTE q (historyTE comp extract cfg ops o).2 := by
    intro ops
    induction ops with
    | nil => exact fun o h _ => h
    | cons op ops ih =>
      intro o h hops
      have hp := hops (op, (stepTE comp extract cfg o op).1) (by simp [historyTE])
      refine ih _ ?_ (fun p hp => hops p (by simp only [historyTE, List.mem_cons]; exact Or.inr hp))
      cases op with
      | acc a => exact goodTE_step comp extract hf h a
      | test nT m =>
        rcases hp with ⟨a, ha⟩ | ⟨v, hv⟩
        · cases ha
        · have hr : ∃ r, (statisticalTestTE comp extract cfg nT m o).1 = .ok r := by
            simp only [stepTE] at hv
            cases hx : (statisticalTestTE comp extract cfg nT m o).1 with
            | error e => rw [hx] at hv; cases hv
            | ok r => exact ⟨r, rfl⟩
          obtain ⟨r, hr⟩ := hr
          have := (C41_te_successful_test_resets_flags comp extract cfg o).1 nT m r hr
          rw [te_test_inner] at this
          exact (goodTE_test comp extract cfg hf h.2 nT m this).1
      | effective m =>
        rcases hp with ⟨a, ha⟩ | ⟨v, hv⟩
        · cases ha
        · have hr : ∃ r, (effectiveValTE comp extract cfg m o).1 = .ok r := by
            simp only [stepTE] at hv
            cases hx : (effectiveValTE comp extract cfg m o).1 with
            | error e => rw [hx] at hv; cases hv
            | ok r => exact ⟨r, rfl⟩
          obtain ⟨r, hr⟩ := hr
          have := (C41_te_successful_test_resets_flags comp extract cfg o).2 m r hr
          rw [te_effective_inner] at this
          exact (goodTE_test comp extract cfg hf h.2 (some (.int 1)) m this).2
  have h2 := h1 ops _ h0 hops
  simp only [stepTE, EstObj.step, EstObj.result]
  rw [(goodTE_globalVal comp extract hf h2).2, (goodTE_globalVal comp extract hf h0).2]

/-- **C41** A test that raises leaves the flags either untouched (invalid arguments) or switched on for
its method (failure during resampling). -/
theorem C41_te_failed_test_flags (comp : TECalc G) (extract : TEFlags → Except Exc (List ℝ))
    (cfg : Settings) (nT : Option PyArg) (m : String) (o : EstObj (TEInner G) ℝ) (e : Exc)
    (h : (statTestTE comp cfg nT (some m) o.inner).1 = .error e) :
    (statisticalTestTE comp extract cfg nT (some m) o).2.inner.flags = o.inner.flags ∨
    (m = "permutation_test" ∧
      (statisticalTestTE comp extract cfg nT (some m) o).2.inner.flags = ⟨true, false⟩) ∨
    (m = "bootstrap" ∧
      (statisticalTestTE comp extract cfg nT (some m) o).2.inner.flags = ⟨false, true⟩) := by
  rw [te_test_inner]
  rcases (statTestTE_spec comp cfg nT (some m) o.inner).2 e h with h1 | ⟨n, m', f, ha, hm, hfl⟩
  · exact Or.inl (by rw [h1])
  · have hmm : m' = m := by
      unfold testArgs at ha
      cases h1 : nTestsArg cfg nT with
      | error e => rw [h1] at ha; cases ha
      | ok v =>
        rw [h1] at ha
        simp only [methodArg, bind, Except.bind, pure, Except.pure] at ha
        split_ifs at ha
        cases ha; rfl
    subst hmm
    unfold methodFlags at hm
    split_ifs at hm with p1 p2
    · cases hm; exact Or.inr (Or.inl ⟨p1, hfl⟩)
    · cases hm; exact Or.inr (Or.inr ⟨p2, hfl⟩)

example (extract : TEFlags → Except Exc (List ℝ)) (cfg : Settings) :=
  C41_te_failed_test_flags (fun _ g => (.ok (.scalar 0), g)) extract cfg (some (.int (-4))) "bootstrap" (freshTE (0 : Nat)) .valueError
    (by simp [statTestTE, testArgs, freshTE, nTestsArg, methodArg, PyArg.posInt, bind, Except.bind])

/-- A transfer-entropy computation with the value `a` on the true source and `b` on the resampled one that
is interrupted once, at its `k`-th evaluation. -/
noncomputable def interruptedTE (a b : ℝ) (k : Nat) : TECalc Nat := fun f g =>
  (if g = k then .error .runtimeError else .ok (.scalar (if f = {} then a else b)), g + 1)

theorem interruptedTE_loop (a b : ℝ) (k : Nat) (f : TEFlags) (j n : Nat) (h1 : j + (n + 1) > k)
    (h2 : j ≤ k) :
    teLoop (interruptedTE a b k) (n + 1) ⟨f, j⟩ = (.error .runtimeError, ⟨f, k + 1⟩) := by
  induction n generalizing j with
  | zero =>
    have : j = k := by omega
    subst this
    simp [teLoop, interruptedTE]
  | succ n ih =>
    by_cases hj : j = k
    · subst hj
      simp [teLoop, interruptedTE]
    · rw [teLoop]
      have : interruptedTE a b k f j = (.ok (.scalar (if f = {} then a else b)), j + 1) := by
        simp [interruptedTE, hj]
      simp only [this]
      rw [ih (j + 1) (by omega) (by omega)]

/-- **C41** (negative) An interruption at any evaluation of a test leaves the resampling switched on: the
next `result` is the value of a randomised source. -/
theorem C41_te_interruption_corrupts_object (a b : ℝ) (k n : Nat) (hk : k < n)
    (extract : TEFlags → Except Exc (List ℝ)) (cfg : Settings) (m : String)
    (hm : m = "permutation_test" ∨ m = "bootstrap") :
    let c := interruptedTE a b k
    let o := (statisticalTestTE c extract cfg (some (.int n)) (some m) (freshTE 0)).2
    (statisticalTestTE c extract cfg (some (.int n)) (some m) (freshTE 0)).1 = .error .runtimeError ∧
    (stepTE c extract cfg o (.acc .result)).1 = .ok (.acc (.num b)) := by
  intro c o
  have hargs : testArgs cfg (some (.int n)) (some m) = .ok ((n : Int), m) := by
    have : (PyArg.int (n : Int)).posInt = true := by simp [PyArg.posInt]; omega
    simp only [testArgs, nTestsArg, methodArg, bind, Except.bind, this, if_true, PyArg.val]
    rfl
  obtain ⟨f, hf, hne⟩ : ∃ f, methodFlags m = some f ∧ f ≠ {} := by
    rcases hm with rfl | rfl
    · exact ⟨⟨true, false⟩, rfl, by decide⟩
    · exact ⟨⟨false, true⟩, by simp [methodFlags], by decide⟩
  have ht : statTestTE c cfg (some (.int n)) (some m) ⟨{}, 0⟩ = (.error .runtimeError, ⟨f, k + 1⟩) := by
    unfold statTestTE
    rw [hargs]
    simp only [Int.toNat_natCast]
    unfold testTE
    obtain ⟨n', rfl⟩ : ∃ n', n = n' + 1 := ⟨n - 1, by omega⟩
    simp only [hf, c]
    rw [interruptedTE_loop a b k f 0 n' (by omega) (by omega)]
  have hall : statisticalTestTE c extract cfg (some (.int n)) (some m) (freshTE 0) =
      (.error .runtimeError, ⟨⟨f, k + 1⟩, none, none⟩) := by
    unfold statisticalTestTE freshTE
    simp only [ht]
  have ho : o = ⟨⟨f, k + 1⟩, none, none⟩ := by
    show (statisticalTestTE _ _ _ _ _ _).2 = _
    rw [hall]
  refine ⟨by rw [hall], ?_⟩
  rw [ho]
  simp [stepTE, EstObj.step, EstObj.result, EstObj.globalVal, EstObj.calculate, teCode, c,
    interruptedTE, Except.map, hne]

example (cfg : Settings) := C41_te_interruption_corrupts_object 1 2 2 4 (by decide) (fun _ => .ok []) cfg "bootstrap" (.inr rfl)

end TE

end Verif
