import Verif.Model.Lifecycle

/-! # C40: results are cached and stable

Everything here holds for *every* estimator class (arbitrary hooks, arbitrary inner state, arbitrary
value type), in particular for hooks whose answer depends on random numbers. -/

namespace Verif

variable {σ V : Type}

/-- the calls that only read results -/
def Acc.isReader : Acc → Prop
  | .calculate => False
  | _ => True

/-- the calls that return the global value -/
def Acc.isGlobal : Acc → Prop
  | .result | .globalVal => True
  | _ => False

theorem globalVal_cached (c : EstCode σ V) {o : EstObj σ V} {v : V} (h : o.resGlobal = some v) :
    o.globalVal c = (.ok v, o) := by
  unfold EstObj.globalVal; rw [h]

theorem localVals_cached (c : EstCode σ V) {o : EstObj σ V} {v : V} {xs : List V}
    (h : o.resGlobal = some v) (hx : o.resLocal = some xs) : o.localVals c = (.ok xs, o) := by
  unfold EstObj.localVals; rw [globalVal_cached c h]; simp only [hx]

theorem calculate_ok (c : EstCode σ V) {o o' : EstObj σ V} (h : o.calculate c = (.ok (), o')) :
    ∃ v, o'.resGlobal = some v ∧ (o'.resLocal = o.resLocal ∨ ∃ xs, o'.resLocal = some xs ∧ v = c.mean xs) := by
  unfold EstObj.calculate at h
  split at h <;> first | (cases h; fail) | skip
  · injection h with h1 h2; cases h1
  · injection h with h1 h2; subst h2
    exact ⟨_, rfl, Or.inr ⟨_, rfl, rfl⟩⟩
  · injection h with h1 h2; cases h1
  · injection h with h1 h2; subst h2
    exact ⟨_, rfl, Or.inl rfl⟩
  · injection h with h1 h2; cases h1

theorem calculate_err (c : EstCode σ V) {o o' : EstObj σ V} {e : Exc}
    (h : o.calculate c = (.error e, o')) :
    o'.resGlobal = o.resGlobal ∧ o'.resLocal = o.resLocal := by
  unfold EstObj.calculate at h
  split at h <;> injection h with h1 h2 <;> first | (cases h1; fail) | (subst h2; exact ⟨rfl, rfl⟩) | cases h1

theorem globalVal_ok (c : EstCode σ V) {o o' : EstObj σ V} {v : V} (h : o.globalVal c = (.ok v, o')) :
    o'.resGlobal = some v := by
  unfold EstObj.globalVal at h
  split at h
  · rename_i w hw
    injection h with h1 h2; injection h1 with h1; subst h1 h2; exact hw
  · split at h
    · injection h with h1 h2; cases h1
    · split at h
      · rename_i hw
        injection h with h1 h2; injection h1 with h1; subst h1 h2; exact hw
      · injection h with h1 h2; cases h1

/-- `global_val` never overwrites a cache that is already filled -/
theorem globalVal_keeps (c : EstCode σ V) (o : EstObj σ V) :
    (∀ v, o.resGlobal = some v → (o.globalVal c).2 = o) := by
  intro v h; rw [globalVal_cached c h]

theorem localVals_ok (c : EstCode σ V) {o o' : EstObj σ V} {xs : List V}
    (h : o.localVals c = (.ok xs, o')) : o'.resLocal = some xs ∧ ∃ v, o'.resGlobal = some v := by
  unfold EstObj.localVals at h
  split at h
  · injection h with h1 h2; cases h1
  · rename_i v o1 hg
    have hv := globalVal_ok c hg
    split at h
    · rename_i ys hys
      injection h with h1 h2; injection h1 with h1; subst h1 h2; exact ⟨hys, v, hv⟩
    · split at h
      · injection h with h1 h2; cases h1
      · injection h with h1 h2; injection h1 with h1; subst h1 h2; exact ⟨rfl, v, hv⟩

/-- a reading call keeps a filled global cache and a filled local cache -/
theorem step_keeps (c : EstCode σ V) (o : EstObj σ V) (a : Acc) (ha : a.isReader) (v : V)
    (h : o.resGlobal = some v) :
    (o.step c a).2.resGlobal = some v ∧
    ∀ xs, o.resLocal = some xs → (o.step c a).2.resLocal = some xs := by
  cases a with
  | calculate => cases ha
  | result => simp only [EstObj.step, EstObj.result, globalVal_cached c h]; exact ⟨h, fun xs hx => hx⟩
  | globalVal => simp only [EstObj.step, globalVal_cached c h]; exact ⟨h, fun xs hx => hx⟩
  | localVals =>
    simp only [EstObj.step]
    constructor
    · unfold EstObj.localVals
      rw [globalVal_cached c h]
      simp only
      split
      · exact h
      · split
        · exact h
        · exact h
    · intro xs hx
      rw [localVals_cached c h hx]; exact hx

theorem run_keeps (c : EstCode σ V) (ops : List Acc) (hops : ∀ a ∈ ops, a.isReader) (o : EstObj σ V)
    (v : V) (h : o.resGlobal = some v) :
    (o.run c ops).resGlobal = some v ∧ ∀ xs, o.resLocal = some xs → (o.run c ops).resLocal = some xs := by
  induction ops generalizing o with
  | nil => exact ⟨h, fun xs hx => hx⟩
  | cons a ops ih =>
    obtain ⟨h1, h2⟩ := step_keeps c o a (hops a (by simp)) v h
    obtain ⟨h3, h4⟩ := ih (fun b hb => hops b (by simp [hb])) _ h1
    exact ⟨h3, fun xs hx => h4 xs (h2 xs hx)⟩

theorem step_global (c : EstCode σ V) (o : EstObj σ V) (a : Acc) (ha : a.isGlobal) :
    (o.step c a).1 = (o.globalVal c).1.map .num ∧ (o.step c a).2 = (o.globalVal c).2 := by
  cases a <;> first | exact ⟨rfl, rfl⟩ | cases ha

/-- **C40** Once a call returned a global value, every later `result`/`global_val` returns exactly that
value, whatever reading calls happen in between and however random the computation is. -/
theorem C40_global_value_is_stable (c : EstCode σ V) (o : EstObj σ V) (a a' : Acc) (ops : List Acc)
    (ha : a.isGlobal) (ha' : a'.isGlobal) (hops : ∀ b ∈ ops, b.isReader) (v : V)
    (h : (o.step c a).1 = .ok (.num v)) :
    (((o.step c a).2.run c ops).step c a').1 = .ok (.num v) := by
  obtain ⟨h1, h2⟩ := step_global c o a ha
  rw [h1] at h
  have hg : (o.globalVal c).1 = .ok v := by
    cases hx : (o.globalVal c).1 with
    | error e => rw [hx] at h; cases h
    | ok w => rw [hx] at h; injection h with h; injection h with h; rw [h]
  have hv := globalVal_ok c (o := o) (o' := (o.globalVal c).2) (v := v) (Prod.ext hg rfl)
  rw [h2]
  obtain ⟨hk, -⟩ := run_keeps c ops hops _ v hv
  rw [(step_global c _ a' ha').1, globalVal_cached c hk]; rfl

/-- **C40** Once `local_vals` returned an array, every later `local_vals` returns the same array, and the
global value is fixed from then on too. -/
theorem C40_local_values_are_stable (c : EstCode σ V) (o : EstObj σ V) (ops : List Acc)
    (hops : ∀ b ∈ ops, b.isReader) (xs : List V) (h : (o.step c .localVals).1 = .ok (.arr xs)) :
    (((o.step c .localVals).2.run c ops).step c .localVals).1 = .ok (.arr xs) := by
  have hg : (o.localVals c).1 = .ok xs := by
    simp only [EstObj.step] at h
    cases hx : (o.localVals c).1 with
    | error e => rw [hx] at h; cases h
    | ok w => rw [hx] at h; injection h with h; injection h with h; rw [h]
  obtain ⟨h1, v, hv⟩ := localVals_ok c (o := o) (o' := (o.localVals c).2) (Prod.ext hg rfl)
  obtain ⟨h3, h4⟩ := run_keeps c ops hops _ v hv
  show ((EstObj.localVals c (EstObj.run c (EstObj.localVals c o).2 ops)).1.map AccOut.arr) = _
  rw [localVals_cached c h3 (h4 xs h1)]; rfl

/-- **C40** The computation runs once: after a global value was returned, further global calls do not
touch the object at all (no random numbers are drawn, no attribute changes). -/
theorem C40_computed_once (c : EstCode σ V) (o : EstObj σ V) (a a' : Acc) (ha : a.isGlobal)
    (ha' : a'.isGlobal) (v : V) (h : (o.step c a).1 = .ok (.num v)) :
    ((o.step c a).2.step c a').2 = (o.step c a).2 := by
  obtain ⟨h1, h2⟩ := step_global c o a ha
  rw [h1] at h
  have hg : (o.globalVal c).1 = .ok v := by
    cases hx : (o.globalVal c).1 with
    | error e => rw [hx] at h; cases h
    | ok w => rw [hx] at h; injection h with h; injection h with h; rw [h]
  have hv := globalVal_ok c (o := o) (o' := (o.globalVal c).2) (v := v) (Prod.ext hg rfl)
  rw [(step_global c _ a' ha').2, h2, globalVal_cached c hv]

/-- **C40** `result` and `global_val` are the same call. -/
theorem C40_result_is_global_val (c : EstCode σ V) (o : EstObj σ V) :
    o.step c .result = o.step c .globalVal := rfl

/-- **C40** A failing evaluation caches nothing, so the next call evaluates again (and reports the same
exception if the computation is deterministic). -/
theorem C40_failure_is_not_cached (c : EstCode σ V) (s : σ) (a : Acc) (e : Exc)
    (h : ((EstObj.mk s none none : EstObj σ V).step c a).1 = .error e) (ha : a ≠ .localVals) :
    ((EstObj.mk s none none : EstObj σ V).step c a).2.resGlobal = none ∧
    ((EstObj.mk s none none : EstObj σ V).step c a).2.resLocal = none := by
  have key : ∀ r, (EstObj.mk s none none : EstObj σ V).calculate c = r → ∀ e', r.1 = .error e' →
      r.2.resGlobal = none ∧ r.2.resLocal = none := by
    intro r hr e' he
    exact calculate_err c (o := EstObj.mk s none none) (o' := r.2) (e := e')
      (by rw [hr]; exact Prod.ext he rfl)
  have gl : ∀ e', ((EstObj.mk s none none : EstObj σ V).globalVal c).1 = .error e' →
      ((EstObj.mk s none none : EstObj σ V).globalVal c).2.resGlobal = none ∧
      ((EstObj.mk s none none : EstObj σ V).globalVal c).2.resLocal = none := by
    intro e' he
    unfold EstObj.globalVal at he ⊢
    simp only at he ⊢
    split at he
    · rename_i e2 o' ho
      exact key _ ho e2 rfl
    · rename_i o' ho
      obtain ⟨v, hv, -⟩ := calculate_ok c ho
      rw [hv] at he; cases he
  cases a with
  | localVals => exact absurd rfl ha
  | calculate =>
    simp only [EstObj.step] at h ⊢
    cases hx : (EstObj.calculate c (EstObj.mk s none none : EstObj σ V)).1 with
    | ok u => rw [hx] at h; cases h
    | error e' => exact key _ rfl e' hx
  | result =>
    simp only [EstObj.step, EstObj.result] at h ⊢
    cases hx : ((EstObj.mk s none none : EstObj σ V).globalVal c).1 with
    | ok u => rw [hx] at h; cases h
    | error e' => exact gl e' hx
  | globalVal =>
    simp only [EstObj.step] at h ⊢
    cases hx : ((EstObj.mk s none none : EstObj σ V).globalVal c).1 with
    | ok u => rw [hx] at h; cases h
    | error e' => exact gl e' hx

/-- **C40** A failing `local_vals` leaves the local cache as empty as it was. -/
theorem C40_failed_local_is_not_cached (c : EstCode σ V) (s : σ) (e : Exc)
    (h : ((EstObj.mk s none none : EstObj σ V).step c .localVals).1 = .error e) :
    ((EstObj.mk s none none : EstObj σ V).step c .localVals).2.resLocal = none := by
  simp only [EstObj.step] at h ⊢
  cases hx : ((EstObj.mk s none none : EstObj σ V).step c .result).1 with
  | error e' =>
    have := (C40_failure_is_not_cached c s .result e' hx (by simp)).2
    simp only [EstObj.step, EstObj.result] at hx this
    unfold EstObj.localVals
    split
    · rename_i o' ho; rw [ho] at this; exact this
    · rename_i o' ho; rw [ho] at hx; cases hx
  | ok w =>
    unfold EstObj.localVals at h ⊢
    split at h
    · rename_i o' ho
      simp only [EstObj.step, EstObj.result, ho] at hx; cases hx
    · rename_i o' ho
      split at h
      · cases h
      · rename_i hl
        split at h
        · exact hl
        · cases h

/-- **C40** If the class has no local values (the hook raises NotImplementedError), `local_vals` is an
UnsupportedOperation, and the global value stays available. -/
theorem C40_no_local_values (c : EstCode σ V) (o : EstObj σ V) (v : V) (h : o.resGlobal = some v)
    (hl : o.resLocal = none) (hx : (c.extract o.inner).1 = .error .notImplementedError) :
    (o.step c .localVals).1 = .error .unsupportedOperation ∧
    ((o.step c .localVals).2.step c .result).1 = .ok (.num v) := by
  have h1 : o.localVals c =
      (.error .unsupportedOperation, { o with inner := (c.extract o.inner).2 }) := by
    unfold EstObj.localVals
    rw [globalVal_cached c h]
    simp only [hl]
    have : c.extract o.inner = (.error .notImplementedError, (c.extract o.inner).2) := Prod.ext hx rfl
    rw [this]
    rfl
  constructor
  · simp only [EstObj.step, h1]; rfl
  · have : (o.step c .localVals).2 = { o with inner := (c.extract o.inner).2 } := by
      simp only [EstObj.step, h1]
    rw [this]
    simp only [EstObj.step, EstObj.result]
    rw [globalVal_cached c (o := { o with inner := (c.extract o.inner).2 }) (v := v) h]
    rfl

/-- **C40** If the class computes local values directly, the global value is their mean and
`local_vals` returns those very values. -/
theorem C40_global_is_mean_of_local (c : EstCode σ V) (s : σ) (xs : List V)
    (h : (c.comp s).1 = .ok (.array1 xs)) :
    ((EstObj.mk s none none : EstObj σ V).step c .result).1 = .ok (.num (c.mean xs)) ∧
    ((EstObj.mk s none none : EstObj σ V).step c .localVals).1 = .ok (.arr xs) := by
  have hc : (EstObj.mk s none none : EstObj σ V).calculate c =
      (.ok (), ⟨(c.comp s).2, some (c.mean xs), some xs⟩) := by
    unfold EstObj.calculate
    have : c.comp s = (.ok (.array1 xs), (c.comp s).2) := Prod.ext h rfl
    simp only
    rw [this]
  have hg : (EstObj.mk s none none : EstObj σ V).globalVal c =
      (.ok (c.mean xs), ⟨(c.comp s).2, some (c.mean xs), some xs⟩) := by
    unfold EstObj.globalVal
    simp only [hc]
  constructor
  · simp only [EstObj.step, EstObj.result, hg]; rfl
  · simp only [EstObj.step, EstObj.localVals, hg]; rfl

/-- **C40** A wrongly shaped or typed result of the hook is a RuntimeError, never a cached value. -/
theorem C40_bad_result_is_runtime_error (c : EstCode σ V) (s : σ)
    (h : (c.comp s).1 = .ok .other ∨ ∃ xs, (c.comp s).1 = .ok (.arrayNd xs)) :
    ((EstObj.mk s none none : EstObj σ V).step c .result).1 = .error .runtimeError ∧
    ((EstObj.mk s none none : EstObj σ V).step c .result).2.resGlobal = none := by
  have hc : (EstObj.mk s none none : EstObj σ V).calculate c =
      (.error .runtimeError, ⟨(c.comp s).2, none, none⟩) := by
    unfold EstObj.calculate
    rcases h with h | ⟨xs, h⟩
    · have : c.comp s = (.ok .other, (c.comp s).2) := Prod.ext h rfl
      simp only
      rw [this]
    · have : c.comp s = (.ok (.arrayNd xs), (c.comp s).2) := Prod.ext h rfl
      simp only
      rw [this]
  simp only [EstObj.step, EstObj.result, EstObj.globalVal, hc]
  exact ⟨rfl, trivial⟩

/-! ### The public `calculate` method -/

/-- invariant for a computation that always gives `r`: every filled cache holds its value -/
def Consistent (c : EstCode σ V) (r : CalcRes V) (o : EstObj σ V) : Prop :=
  ∀ v, o.resGlobal = some v → r = .scalar v ∨ ∃ xs, r = .array1 xs ∧ v = c.mean xs

theorem consistent_calculate (c : EstCode σ V) (r : CalcRes V) (hr : ∀ s, (c.comp s).1 = .ok r)
    (o : EstObj σ V) (h : Consistent c r o) : Consistent c r (o.calculate c).2 := by
  have : c.comp o.inner = (.ok r, (c.comp o.inner).2) := Prod.ext (hr _) rfl
  unfold EstObj.calculate
  rw [this]
  cases r with
  | array1 xs =>
    intro v hv
    simp only [Option.some.injEq] at hv
    exact Or.inr ⟨xs, rfl, hv.symm⟩
  | arrayNd xs => exact h
  | scalar w =>
    intro v hv
    simp only [Option.some.injEq] at hv
    exact Or.inl (by rw [hv])
  | other => exact h

theorem consistent_globalVal (c : EstCode σ V) (r : CalcRes V) (hr : ∀ s, (c.comp s).1 = .ok r)
    (o : EstObj σ V) (h : Consistent c r o) : Consistent c r (o.globalVal c).2 := by
  unfold EstObj.globalVal
  split
  · exact h
  · have := consistent_calculate c r hr o h
    cases hc : o.calculate c with
    | mk res o' =>
      rw [hc] at this
      cases res with
      | error e => exact this
      | ok u =>
        simp only
        split <;> exact this

theorem consistent_step (c : EstCode σ V) (r : CalcRes V) (hr : ∀ s, (c.comp s).1 = .ok r)
    (o : EstObj σ V) (h : Consistent c r o) (a : Acc) : Consistent c r (o.step c a).2 := by
  cases a with
  | calculate => exact consistent_calculate c r hr o h
  | result => exact consistent_globalVal c r hr o h
  | globalVal => exact consistent_globalVal c r hr o h
  | localVals =>
    have := consistent_globalVal c r hr o h
    simp only [EstObj.step]
    unfold EstObj.localVals
    cases hc : o.globalVal c with
    | mk res o' =>
      rw [hc] at this
      cases res with
      | error e => exact this
      | ok u =>
        simp only
        split
        · exact this
        · split <;> exact this

/-- **C40** With a deterministic computation the result is the same in every history, even if the user
calls `calculate` again and again. -/
theorem C40_deterministic_result_in_any_history (c : EstCode σ V) (r : CalcRes V) (s : σ)
    (hr : ∀ s, (c.comp s).1 = .ok r) (ops : List Acc) (a : Acc) (ha : a.isGlobal) :
    (((EstObj.mk s none none : EstObj σ V).run c ops).step c a).1 =
      match r with
      | .scalar v => .ok (.num v)
      | .array1 xs => .ok (.num (c.mean xs))
      | .arrayNd _ => .error .runtimeError
      | .other => .error .runtimeError := by
  have hinv : ∀ (ops : List Acc) (o : EstObj σ V), Consistent c r o → Consistent c r (o.run c ops) := by
    intro ops
    induction ops with
    | nil => exact fun o h => h
    | cons b ops ih => exact fun o h => ih _ (consistent_step c r hr o h b)
  have h0 : Consistent c r (EstObj.mk s none none : EstObj σ V) := by intro v hv; cases hv
  have h := hinv ops _ h0
  generalize EstObj.run c (EstObj.mk s none none) ops = o at h
  rw [(step_global c o a ha).1]
  cases hg : o.resGlobal with
  | some v =>
    rw [globalVal_cached c hg]
    rcases h v hg with h | ⟨xs, h, hv⟩
    · subst h; rfl
    · subst h; subst hv; rfl
  | none =>
    have : c.comp o.inner = (.ok r, (c.comp o.inner).2) := Prod.ext (hr _) rfl
    unfold EstObj.globalVal
    simp only [hg]
    unfold EstObj.calculate
    rw [this]
    cases r with
    | array1 xs => rfl
    | arrayNd xs => simp [Except.map]
    | scalar w => rfl
    | other => simp [Except.map]

/-- A class whose computation draws a random number (adding noise): the inner state is the generator. -/
def noisyCode : EstCode Nat Nat where
  comp s := (.ok (.scalar s), s + 1)
  extract s := (.ok [s], s + 1)
  mean l := l.sum / l.length

/-- **C40** (negative) For a randomised computation the public `calculate` overwrites the cached value,
and the local values stay those of the earlier evaluation. -/
theorem C40_recalculating_replaces_random_result :
    let o1 := (EstObj.mk 7 none none).run noisyCode [.localVals]
    (o1.step noisyCode .result).1 = .ok (.num 7) ∧
    ((o1.run noisyCode [.calculate]).step noisyCode .result).1 = .ok (.num 9) ∧
    (o1.step noisyCode .localVals).1 = .ok (.arr [8]) ∧
    ((o1.run noisyCode [.calculate]).step noisyCode .localVals).1 = .ok (.arr [8]) :=
  ⟨rfl, rfl, rfl, rfl⟩

/-- **C40** Local values of a cross-entropy are refused without evaluating anything. -/
theorem C40_cross_entropy_has_no_local_values (c : EstCode σ V) (o : EstObj σ V) :
    o.entropyLocalVals true c = (.error .unsupportedOperation, o) ∧
    o.entropyLocalVals false c = o.localVals c := ⟨rfl, rfl⟩

/-- a class that returns local values, fails on the state 0 and has no separate extraction of local values -/
def plainCode : EstCode Nat Nat where
  comp s := (if s = 0 then .error .valueError else if s = 1 then .ok (.arrayNd [1]) else if s = 2 then .ok (.scalar 5) else .ok (.array1 [s, s + 2]), s)
  extract s := (.error .notImplementedError, s)
  mean l := l.sum / l.length

example := C40_global_value_is_stable noisyCode ⟨7, none, none⟩ .result .globalVal [.localVals, .result] (by simp [Acc.isGlobal])
  (by simp [Acc.isGlobal]) (by simp [Acc.isReader]) 7 rfl
example := C40_local_values_are_stable noisyCode ⟨7, none, none⟩ [.globalVal, .result] (by simp [Acc.isReader]) [8] rfl
example := C40_computed_once noisyCode ⟨7, none, none⟩ .result .globalVal (by simp [Acc.isGlobal]) (by simp [Acc.isGlobal]) 7 rfl
example := C40_failure_is_not_cached plainCode 0 .result .valueError rfl (by simp)
example := C40_failed_local_is_not_cached plainCode 0 .valueError rfl
example := C40_no_local_values plainCode ⟨2, some 5, none⟩ 5 rfl rfl rfl
example := C40_global_is_mean_of_local plainCode 3 [3, 5] rfl
example := C40_bad_result_is_runtime_error plainCode 1 (.inr ⟨[1], rfl⟩)
example := C40_deterministic_result_in_any_history (⟨fun s => (.ok (.array1 [3, 5]), s + 1), fun s => (.ok [], s), fun l => l.sum / l.length⟩ : EstCode Nat Nat)
  (.array1 [3, 5]) 0 (fun _ => rfl) [.localVals, .calculate] .result (by simp [Acc.isGlobal])

/-- the hypotheses are met: a randomised class whose first result is 7 -/
example : ((EstObj.mk 7 none none).step noisyCode .result).1 = .ok (.num 7) ∧
    ∀ b ∈ [Acc.localVals, .result], b.isReader := by
  refine ⟨rfl, ?_⟩
  simp [Acc.isReader]

end Verif
