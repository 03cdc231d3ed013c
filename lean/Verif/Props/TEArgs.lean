import Verif.Props.TE3
import Verif.Props.Nsb
import Verif.Props.OrdinalMI
import Verif.Model.VecTE

/-!
# C73: transfer entropy accepts exactly the valid calls

`teInit`, `cteInit` are the constructors; here is what a caller sees: for which series, history lengths, step sizes,
propagation times and offsets there is a value, and which exception there is otherwise.
-/

namespace Verif

/-- a propagation time or offset that counts as "not given": `None`, `0` or `0.0` -/
def ZeroArg (a : Option PyArg) : Prop := a = none ∨ a = some (.int 0) ∨ a = some (.num 0)

/-- the call `prop_time=pt, offset=off` asks for the shift `p`: one of the two is given, and it is an integer -/
def AsksShift (pt off : Option PyArg) (p : Int) : Prop :=
  (ZeroArg off ∧ pt = some (.int p)) ∨ (¬ ZeroArg off ∧ ZeroArg pt ∧ off = some (.int p))

open Classical in
theorem teInit_merged {α : Type} (source dest : List α) (pt off : Option PyArg) (st : PyArg) :
    teInit source dest pt off st =
      match (if ¬ ZeroArg off then (if ZeroArg pt then .ok off else .error .valueError) else .ok pt : Except Exc (Option PyArg)) with
      | .error e => .error e
      | .ok pt => if source.length ≠ dest.length then .error .valueError else teInit source dest pt none st := by
  have zn : ZeroArg none := Or.inl rfl
  rcases off with _ | a <;> [skip; cases a] <;> (rcases pt with _ | c <;> [skip; cases c]) <;>
    simp only [teInit, ZeroArg, reduceCtorEq, Option.some.injEq, PyArg.int.injEq, PyArg.num.injEq, or_false, false_or, or_true, true_or,
      not_true_eq_false, not_false_eq_true, if_true, if_false] <;> split_ifs <;> simp_all

/-- the constructor, for any element type -/
theorem C73_te_constructor {α : Type} (source dest : List α) (pt off : Option PyArg) (st : PyArg) :
    ((source.length ≠ dest.length ∨ ¬ ∃ p, AsksShift pt off p) → teInit source dest pt off st = .error .valueError) ∧
    (source.length = dest.length → AsksShift pt off 0 → teInit source dest pt off st = .ok (source, dest)) ∧
    (∀ p, source.length = dest.length → p ≠ 0 → AsksShift pt off p →
      ((∃ s : Int, st = .int s ∧ teInit source dest pt off st = teInit source dest (some (.int p)) none (.int s) ∧
        ∃ d, teInit source dest pt off st = .ok d) ∨
      ((∀ s : Int, st ≠ .int s) ∧ teInit source dest pt off st = .error .typeError))) := by
  -- with the offset not given
  have N : ∀ (a : Option PyArg), (∀ n, a ≠ some (.int n)) → source.length = dest.length →
      teInit source dest a none st = .error .valueError := by
    intro a ha hl
    rcases a with _ | a
    · simp [teInit, hl]
    · cases a with
      | int n => exact absurd rfl (ha n)
      | num x => simp [teInit, hl]
      | other => simp [teInit, hl]
  refine ⟨?_, ?_, ?_⟩
  · intro h
    rw [teInit_merged]
    by_cases ho : ZeroArg off
    · simp only [ho, not_true_eq_false, if_false]
      split_ifs with hl
      · rfl
      · push Not at hl
        refine N pt (fun n hn => ?_) hl
        exact h.elim (fun h => h hl) (fun h => h ⟨n, Or.inl ⟨ho, hn⟩⟩)
    · by_cases hp : ZeroArg pt
      · simp only [ho, hp, not_false_eq_true, if_true]
        split_ifs with hl
        · rfl
        · push Not at hl
          refine N off (fun n hn => ?_) hl
          exact h.elim (fun h => h hl) (fun h => h ⟨n, Or.inr ⟨ho, hp, hn⟩⟩)
      · simp only [ho, hp, not_false_eq_true, if_true, if_false]
  · intro hlen h
    rcases h with ⟨ho, rfl⟩ | ⟨ho, hp, rfl⟩
    · rw [teInit_merged]
      simp only [ho, not_true_eq_false, if_false, ne_eq, hlen]
      exact teInit_zero hlen _
    · exact absurd (Or.inr (Or.inl rfl)) ho
  · intro p hlen hp0 h
    have e : teInit source dest pt off st = teInit source dest (some (.int p)) none st := by
      rw [teInit_merged]
      rcases h with ⟨ho, rfl⟩ | ⟨ho, hp, rfl⟩
      · simp only [ho, not_true_eq_false, if_false, ne_eq, hlen]
      · simp only [ho, hp, not_true_eq_false, not_false_eq_true, if_true, if_false, ne_eq, hlen]
    rw [e]
    cases st with
    | int s =>
      refine Or.inl ⟨s, rfl, rfl, ?_⟩
      by_cases hq : 0 < p
      · exact ⟨(pySlice source none (orNone (-p * s)), pySlice dest (some (p * s)) none), by simp [teInit, hlen, hp0, hq]⟩
      · exact ⟨(pySlice source (some (-p * s)) none, pySlice dest none (orNone (p * s))), by simp [teInit, hlen, hp0, hq]⟩
    | num x => exact Or.inr ⟨by simp, by simp [teInit, hlen, hp0]⟩
    | other => exact Or.inr ⟨by simp, by simp [teInit, hlen, hp0]⟩

example := (C73_te_constructor ([1, 0, 1, 1, 0] : List Int) [0, 1, 0, 1, 1] (some (.int 0)) (some (.int 2)) (.int 1)).2.2 2 rfl (by decide)
  (.inr ⟨by simp [ZeroArg], .inr (.inl rfl), rfl⟩)

/-- **C73** Every transfer-entropy estimator raises ValueError when the two series differ in length, when `prop_time` and
`offset` are both given, and when the one given is not an integer. -/
theorem C73_te_rejects {α : Type} [LinearOrder α] [Inhabited α] (pt off : Option PyArg) (p : TEParams) (b : Base) (rnd : SrcRandom) :
    (∀ (source dest : List Int), (source.length ≠ dest.length ∨ ¬ ∃ n, AsksShift pt off n) →
      (∀ mm, discreteTE source dest p pt off b mm rnd = .error .valueError) ∧
      (∀ mm, discreteTELocal source dest p pt off b mm rnd = .error .valueError) ∧
      (∀ est, genericTE est source dest p pt off rnd = .error .valueError) ∧
      (∀ c, biasTE c source dest p pt off b rnd = .error .valueError) ∧
      (∀ find K, nsbTE find K source dest p pt off b rnd = .error .valueError)) ∧
    (∀ (source dest : List ℝ), (source.length ≠ dest.length ∨ ¬ ∃ n, AsksShift pt off n) →
      (∀ cfg, kernelTE source dest p pt off cfg b rnd = .error .valueError) ∧
      (∀ cfg nx ny, ksgTE source dest p pt off cfg nx ny b rnd = .error .valueError) ∧
      (∀ val k order nx ny, expTE val source dest p pt off k order nx ny b rnd = .error .valueError)) ∧
    (∀ (source dest : List α) (q : Argsort α) (d : PyArg) (stable : Bool),
      (source.length ≠ dest.length ∨ ¬ ∃ n, AsksShift pt off n) →
      ordTE q source dest { dim := d, stable := stable, te := p } pt off b rnd = .error .valueError) ∧
    (∀ (source dest : List (List Int)), (source.length ≠ dest.length ∨ ¬ ∃ n, AsksShift pt off n) →
      ∀ mm, discreteTEVec source dest p pt off b mm rnd = .error .valueError) ∧
    (∀ (source dest : List (List ℝ)), (source.length ≠ dest.length ∨ ¬ ∃ n, AsksShift pt off n) →
      (∀ cfg, kernelTEVec source dest p pt off cfg b rnd = .error .valueError) ∧
      (∀ cfg nx ny, ksgTEVec source dest p pt off cfg nx ny b rnd = .error .valueError) ∧
      (∀ val k order nx ny, expTEVec val source dest p pt off k order nx ny b rnd = .error .valueError)) := by
  refine ⟨?_, ?_, ?_, ?_, ?_⟩
  · intro source dest h
    have e := (C73_te_constructor source dest pt off p.step).1 h
    refine ⟨?_, ?_, ?_, ?_, ?_⟩ <;> intros <;>
      simp only [discreteTE, discreteTELocal, genericTE, biasTE, nsbTE, e, bind, Except.bind]
  · intro source dest h
    have e := (C73_te_constructor source dest pt off p.step).1 h
    refine ⟨?_, ?_, ?_⟩ <;> intros <;>
      simp only [kernelTE, kernelTELocal, ksgTE, ksgTELocal, expTE, e, bind, Except.bind]
  · intro source dest q d stable h
    have e := (C73_te_constructor source dest pt off p.step).1 h
    simp only [ordTE, e, bind, Except.bind]
  · intro source dest h mm
    have e := (C73_te_constructor source dest pt off p.step).1 h
    simp only [discreteTEVec, e, bind, Except.bind]
  · intro source dest h
    have e := (C73_te_constructor source dest pt off p.step).1 h
    refine ⟨?_, ?_, ?_⟩ <;> intros <;>
      simp only [kernelTEVec, kernelTEVecLocal, ksgTEVec, ksgTEVecLocal, expTEVec, e, bind, Except.bind]

example := ((C73_te_rejects (α := Int) (some (.int 0)) none (teParams 1 1 1) .e {}).1 [1, 0, 1] [0, 1] (.inl (by decide))).1 true

/-- **C73** Both `prop_time` and `offset` given: ValueError, for every pair of non-zero integers. -/
theorem C73_te_both_given (source dest : List Int) (p o : Int) (hp : p ≠ 0) (ho : o ≠ 0) (q : TEParams) (b : Base) (mm : Bool)
    (rnd : SrcRandom) : discreteTE source dest q (some (.int p)) (some (.int o)) b mm rnd = .error .valueError := by
  refine ((C73_te_rejects (α := Int) (some (.int p)) (some (.int o)) q b rnd).1 source dest (Or.inr ?_)).1 mm
  rintro ⟨n, ⟨hz, _⟩ | ⟨_, hz, _⟩⟩
  · simp [ZeroArg, ho] at hz
  · simp [ZeroArg, hp] at hz

example := C73_te_both_given [1, 0, 1, 1, 0] [0, 1, 0, 1, 1] 1 2 (by decide) (by decide) (teParams 1 1 1) .e true {}

/-- **C73** The calls of the plug-in and Miller–Madow transfer entropy that give a value are exactly those where the series
have equal length, the shift, the history lengths and the step size are integers, the latter three positive, the
overlap after the shift is longer than the largest delay, and not both randomisations are requested.  Otherwise the
exception is ValueError, except for a step size that cannot be multiplied or compared. -/
theorem C73_te_accepts (source dest : List Int) (q : TEParams) (pt off : Option PyArg) (b : Base) (hb : b.Valid) (mm : Bool)
    (rnd : SrcRandom) (hr : rnd.Contract) (hov : dest.length < 2 ^ 32) :
    let valid := source.length = dest.length ∧ ∃ (p : Int) (l k s : Nat), AsksShift pt off p ∧
      q.srcHist = .int l ∧ q.destHist = .int k ∧ q.step = .int s ∧ 0 < l ∧ 0 < k ∧ 0 < s ∧
      p.natAbs * s + max l k * s < source.length ∧ ¬ (rnd.permute.isSome ∧ rnd.resample.isSome)
    let typeErr := source.length = dest.length ∧ ∃ p, AsksShift pt off p ∧
      ((p = 0 ∧ q.step = .other) ∨ (p ≠ 0 ∧ ∀ s, q.step ≠ .int s))
    ((∃ v, discreteTE source dest q pt off b mm rnd = .ok v) ↔ valid) ∧
    (discreteTE source dest q pt off b mm rnd = .error .typeError ↔ typeErr) ∧
    (discreteTE source dest q pt off b mm rnd = .error .valueError ↔ ¬ valid ∧ ¬ typeErr) := by
  intro valid typeErr
  have uniq : ∀ p p', AsksShift pt off p → AsksShift pt off p' → p = p' := by
    rintro p p' (⟨h1, h2⟩ | ⟨h1, h2, h3⟩) (⟨h4, h5⟩ | ⟨h4, h5, h6⟩)
    · rw [h2] at h5; simpa using h5
    · exact absurd h1 h4
    · exact absurd h4 h1
    · rw [h3] at h6; simpa using h6
  have key : (valid ∧ ¬ typeErr ∧ ∃ v, discreteTE source dest q pt off b mm rnd = .ok v) ∨
      (¬ valid ∧ typeErr ∧ discreteTE source dest q pt off b mm rnd = .error .typeError) ∨
      (¬ valid ∧ ¬ typeErr ∧ discreteTE source dest q pt off b mm rnd = .error .valueError) := by
    obtain ⟨c1, c2, c3⟩ := C73_te_constructor source dest pt off q.step
    by_cases hbad : source.length ≠ dest.length ∨ ¬ ∃ p, AsksShift pt off p
    · refine Or.inr (Or.inr ⟨?_, ?_, by simp only [discreteTE, c1 hbad, bind, Except.bind]⟩)
      · rintro ⟨h1, p, l, k, s, h2, _⟩
        exact hbad.elim (fun h => h h1) (fun h => h ⟨p, h2⟩)
      · rintro ⟨h1, p, h2, _⟩
        exact hbad.elim (fun h => h h1) (fun h => h ⟨p, h2⟩)
    · push Not at hbad
      obtain ⟨hlen, p, hp⟩ := hbad
      -- the value after the shift
      have base : ∀ x y : List Int, x.length = y.length → y.length < 2 ^ 32 →
          teInit source dest pt off q.step = .ok (x, y) → (¬ (p ≠ 0 ∧ ∀ s, q.step ≠ .int s)) →
          (∀ s : Nat, q.step = .int s → 0 < s → x.length = source.length - p.natAbs * s) →
          (valid ∧ ¬ typeErr ∧ ∃ v, discreteTE source dest q pt off b mm rnd = .ok v) ∨
          (¬ valid ∧ typeErr ∧ discreteTE source dest q pt off b mm rnd = .error .typeError) ∨
          (¬ valid ∧ ¬ typeErr ∧ discreteTE source dest q pt off b mm rnd = .error .valueError) := by
        intro x y hxy hov' hi hnt hxl
        obtain ⟨g1, g2, g3⟩ := C21_te_guard_exact x y q.srcHist q.destHist q.step rnd hr hxy
        by_cases hst : q.step = .other
        · refine Or.inr (Or.inl ⟨?_, ?_, ?_⟩)
          · rintro ⟨_, _, _, _, _, _, _, _, h, _⟩
            rw [hst] at h; exact PyArg.noConfusion h
          · refine ⟨hlen, p, hp, ?_⟩
            by_cases h0 : p = 0
            · exact Or.inl ⟨h0, hst⟩
            · exact absurd ⟨h0, fun s h => by rw [hst] at h; exact PyArg.noConfusion h⟩ hnt
          · simp only [discreteTE, hi, bind, Except.bind, g2.2 hst]
        · have hnte : ¬ typeErr := by
            rintro ⟨_, p', hp', h | h⟩
            · exact hst h.2
            · exact hnt (uniq p' p hp' hp ▸ h)
          by_cases hv : ∃ l k s : Nat, q.srcHist = .int l ∧ q.destHist = .int k ∧ q.step = .int s ∧ 0 < l ∧ 0 < k ∧ 0 < s ∧
              max l k * s < x.length ∧ ¬ (rnd.permute.isSome ∧ rnd.resample.isSome)
          · obtain ⟨l, k, s, e1, e2, e3, hl, hk, hs, hm, hbo⟩ := hv
            refine Or.inl ⟨⟨hlen, p, l, k, s, hp, e1, e2, e3, hl, hk, hs, ?_, hbo⟩, hnte, ?_⟩
            · have := hxl s e3 hs; omega
            · obtain ⟨g, _, hg, _⟩ := C24_local_te_mean x y l k s hs hl hk (by rwa [max_comm]) hxy hov' b hb mm rnd ⟨hbo, hr⟩
              refine ⟨g, ?_⟩
              have hq : q = teParams l k s := by
                cases q; simp only [teParams] at *; simp [e1, e2, e3]
              subst hq
              rw [← hg]
              simp only [discreteTE, hi, teInit_zero hxy, bind, Except.bind]
          · refine Or.inr (Or.inr ⟨?_, hnte, ?_⟩)
            · rintro ⟨_, p', l, k, s, hp', e1, e2, e3, hl, hk, hs, hm, hbo⟩
              refine hv ⟨l, k, s, e1, e2, e3, hl, hk, hs, ?_, hbo⟩
              have := hxl s e3 hs
              rw [uniq p' p hp' hp] at hm
              omega
            · simp only [discreteTE, hi, bind, Except.bind, g3.2 ⟨hst, hv⟩]
      by_cases h0 : p = 0
      · subst h0
        exact base source dest hlen hov (c2 hlen hp) (by simp) (by simp)
      · rcases c3 p hlen h0 hp with ⟨s, hst, he, d, hd⟩ | ⟨hst, he⟩
        · by_cases hs : 0 < s
          · obtain ⟨s', rfl⟩ := Int.eq_ofNat_of_zero_le hs.le
            have hs' : 0 < s' := by omega
            -- lengths of the shifted series
            have hl : d.1.length = source.length - p.natAbs * s' ∧ d.2.length = source.length - p.natAbs * s' := by
              rw [he] at hd
              rcases Int.lt_trichotomy p 0 with hneg | h | hpos
              · obtain ⟨n, hn⟩ := Int.eq_ofNat_of_zero_le (by omega : 0 ≤ -p)
                obtain rfl : p = -(n : Int) := by omega
                have hns : 0 < n * s' := Nat.mul_pos (by omega) hs'
                have e1 : - -(n : Int) * s' = ((n * s' : ℕ) : Int) := by push_cast; ring
                have e2 : -(n : Int) * s' = -((n * s' : ℕ) : Int) := by push_cast; ring
                have h2 : ¬ (0 < -(n : Int)) := by omega
                simp only [teInit, not_true_eq_false, if_false, hlen, ne_eq, h0, h2, e1, e2, pySlice_start,
                  pySlice_stop_neg _ _ hns, Except.ok.injEq] at hd
                subst hd
                simp [hlen]
              · exact absurd h h0
              · obtain ⟨n, rfl⟩ := Int.eq_ofNat_of_zero_le hpos.le
                have hns : 0 < n * s' := Nat.mul_pos (by omega) hs'
                have e1 : (n : Int) * s' = ((n * s' : ℕ) : Int) := by push_cast; ring
                have e2 : -(n : Int) * s' = -((n * s' : ℕ) : Int) := by push_cast; ring
                simp only [teInit, not_true_eq_false, if_false, hlen, ne_eq, h0, hpos, if_true, e1, e2, pySlice_start,
                  pySlice_stop_neg _ _ hns, Except.ok.injEq] at hd
                subst hd
                simp [hlen]
            refine base d.1 d.2 (hl.1.trans hl.2.symm) (by omega) hd (by rintro ⟨_, h⟩; exact h _ hst) ?_
            intro s'' hs'' _
            rw [hst] at hs''
            have : s' = s'' := by simpa using hs''
            subst this
            exact hl.1
          · -- a step that is not positive
            refine Or.inr (Or.inr ⟨?_, ?_, ?_⟩)
            · rintro ⟨_, _, _, _, s', _, _, _, e3, _, _, hs', _⟩
              rw [hst] at e3
              have : s = s' := by simpa using e3
              omega
            · rintro ⟨_, p', hp', h | h⟩
              · rw [hst] at h; exact PyArg.noConfusion h.2
              · exact h.2 s hst
            · have ho : teObservations d.1 d.2 q.srcHist q.destHist q.step rnd = .error .valueError := by
                rw [hst]
                unfold teObservations
                have : [q.srcHist, q.destHist, PyArg.int s].all PyArg.posInt = false := by
                  simp [PyArg.posInt, hs]
                simp [this]
              simp only [discreteTE, hd, bind, Except.bind, ho]
        · refine Or.inr (Or.inl ⟨?_, ⟨hlen, p, hp, Or.inr ⟨h0, hst⟩⟩, ?_⟩)
          · rintro ⟨_, _, _, _, s', _, _, _, e3, _⟩
            exact hst _ e3
          · simp only [discreteTE, he, bind, Except.bind]
  rcases key with ⟨h1, h2, v, h3⟩ | ⟨h1, h2, h3⟩ | ⟨h1, h2, h3⟩ <;> rw [h3] <;> simp [h1, h2]

example := (C73_te_accepts [1, 0, 1, 1, 0] [0, 1, 0, 1, 1] (teParams 2 1 1) (some (.int (-1))) none (.num 2) (by norm_num [Base.Valid]) true {} (by simp [SrcRandom.Contract]) (by decide)).1.2
  ⟨rfl, -1, 2, 1, 1, .inl ⟨.inl rfl, rfl⟩, rfl, rfl, rfl, by decide, by decide, by decide, by decide, by simp⟩

/-- **C22** `permute_src` and `resample_src` exclude each other: ValueError whatever the series. -/
theorem C22_exclusive {α : Type} [Inhabited α] (source dest cond : List α) (a b c st : PyArg) (f g : Nat → List Nat)
    (hf : ∀ R, (f R).Perm (List.range R)) (hg : ∀ R, (g R).length = R ∧ ∀ i ∈ g R, i < R) (hst : st ≠ .other)
    (hlen : source.length = dest.length) (hlen2 : cond.length = dest.length) :
    teObservations source dest a b st { permute := some f, resample := some g } = .error .valueError ∧
    cteObservations source dest cond a b c st { permute := some f, resample := some g } = .error .valueError := by
  have hr : ({ permute := some f, resample := some g } : SrcRandom).Contract :=
    ⟨by intro h hh R; simp only [Option.mem_def, Option.some.injEq] at hh; subst hh; exact hf R,
     by intro h hh R; simp only [Option.mem_def, Option.some.injEq] at hh; subst hh; exact hg R⟩
  refine ⟨(C21_te_guard_exact source dest a b st _ hr hlen).2.2.2 ⟨hst, ?_⟩,
    (C21_cte_guard_exact source dest cond a b c st _ hr hlen hlen2).2.2 ?_⟩
  · rintro ⟨_, _, _, _, _, _, _, _, _, _, h⟩
    exact h ⟨rfl, rfl⟩
  · rintro ⟨_, _, _, _, _, _, _, _, _, _, _, _, _, h⟩
    exact h ⟨rfl, rfl⟩

example := C22_exclusive ([1, 0, 1, 1, 0] : List Int) [0, 1, 0, 1, 1] [0, 0, 1, 1, 0] (.int 1) (.int 1) (.int 1) (.int 1)
  (fun R => (List.range R).reverse) (fun R => List.range R) (fun _ => List.reverse_perm _) (fun R => ⟨by simp, by simp⟩) (by simp) rfl rfl

/-- the constructor of conditional transfer entropy -/
theorem C73_cte_constructor {α : Type} (source dest : List α) (cond : Option (List α)) (pt off : Option PyArg) :
    let valid := ∃ z, cond = some z ∧ source.length = dest.length ∧ source.length = z.length ∧ pt = some (.int 0) ∧ ZeroArg off
    (valid → ∀ z, cond = some z → cteInit source dest cond pt off = .ok (source, dest, z)) ∧
    (¬ valid → cteInit source dest cond pt off = .error .valueError) := by
  intro valid
  constructor
  · rintro ⟨z, rfl, h1, h2, rfl, h3⟩ z' hz
    obtain rfl : z = z' := by simpa using hz
    rcases h3 with rfl | rfl | rfl <;> simp [cteInit, ← h1, ← h2]
  · intro hv
    rcases cond with _ | z
    · rfl
    · unfold cteInit
      simp only
      split_ifs with hl
      · rfl
      · push Not at hl
        rcases pt with _ | a
        · rfl
        · cases a with
          | int n =>
            by_cases h0 : n = 0
            · subst h0
              have hz : ¬ ZeroArg off := fun h => hv ⟨z, rfl, hl.1, hl.2, rfl, h⟩
              rcases off with _ | c
              · exact absurd (Or.inl rfl) hz
              · cases c with
                | int m =>
                  have : m ≠ 0 := by rintro rfl; exact hz (Or.inr (Or.inl rfl))
                  simp [this]
                | num x =>
                  have : x ≠ 0 := by rintro rfl; exact hz (Or.inr (Or.inr rfl))
                  simp [this]
                | other => simp
            · simp [h0]
          | num x => rfl
          | other => rfl

example := (C73_cte_constructor ([1, 0, 1] : List Int) [0, 1, 0] (some [1, 1, 0]) (some (.int 0)) none).1
  ⟨_, rfl, rfl, rfl, rfl, .inl rfl⟩ _ rfl

/-- **C73** Every conditional transfer-entropy estimator raises ValueError without a condition, for series of different
lengths, for a propagation time that is not the integer 0, and for a non-zero offset. -/
theorem C73_cte_rejects {α : Type} [LinearOrder α] [Inhabited α] (pt off : Option PyArg) (p : TEParams) (ch : PyArg) (b : Base) :
    (∀ (source dest : List Int) (cond : Option (List Int)),
      (¬ ∃ z, cond = some z ∧ source.length = dest.length ∧ source.length = z.length ∧ pt = some (.int 0) ∧ ZeroArg off) →
      (∀ mm, discreteCTE source dest cond p ch pt off b mm = .error .valueError) ∧
      (∀ est, genericCTE est source dest cond p ch pt off = .error .valueError) ∧
      (∀ c, biasCTE c source dest cond p ch pt off b = .error .valueError) ∧
      (∀ find K, nsbCTE find K source dest cond p ch pt off b = .error .valueError)) ∧
    (∀ (source dest : List ℝ) (cond : Option (List ℝ)),
      (¬ ∃ z, cond = some z ∧ source.length = dest.length ∧ source.length = z.length ∧ pt = some (.int 0) ∧ ZeroArg off) →
      (∀ cfg, kernelCTE source dest cond p ch pt off cfg b = .error .valueError) ∧
      (∀ cfg nx ny nz, ksgCTE source dest cond p ch pt off cfg nx ny nz b = .error .valueError) ∧
      (∀ val k order nx ny nz, expCTE val source dest cond p ch pt off k order nx ny nz b = .error .valueError)) ∧
    (∀ (source dest : List α) (cond : Option (List α)) (q : Argsort α) (d : PyArg) (stable : Bool),
      (¬ ∃ z, cond = some z ∧ source.length = dest.length ∧ source.length = z.length ∧ pt = some (.int 0) ∧ ZeroArg off) →
      ordCTE q source dest cond { dim := d, stable := stable, te := p, condHist := ch } pt off b = .error .valueError) := by
  refine ⟨?_, ?_, ?_⟩
  · intro source dest cond h
    have e := (C73_cte_constructor source dest cond pt off).2 h
    refine ⟨?_, ?_, ?_, ?_⟩ <;> intros <;>
      simp only [discreteCTE, genericCTE, biasCTE, nsbCTE, e, bind, Except.bind]
  · intro source dest cond h
    have e := (C73_cte_constructor source dest cond pt off).2 h
    refine ⟨?_, ?_, ?_⟩ <;> intros <;>
      simp only [kernelCTE, kernelCTELocal, ksgCTE, ksgCTELocal, expCTE, e, bind, Except.bind]
  · intro source dest cond q d stable h
    have e := (C73_cte_constructor source dest cond pt off).2 h
    simp only [ordCTE, e, bind, Except.bind]

example := ((C73_cte_rejects (α := Int) (some (.int 1)) none (teParams 1 1 1) (.int 1) .e).1 [1, 0, 1] [0, 1, 1] (some [0, 0, 1]) (by simp)).1 true

/-- **C73** The calls of the plug-in and Miller–Madow conditional transfer entropy that give a value; every other call
raises ValueError. -/
theorem C73_cte_accepts (source dest : List Int) (cond : Option (List Int)) (q : TEParams) (ch : PyArg) (pt off : Option PyArg)
    (b : Base) (hb : b.Valid) (mm : Bool) (hov : dest.length < 2 ^ 32) :
    let valid := ∃ z, cond = some z ∧ source.length = dest.length ∧ source.length = z.length ∧ pt = some (.int 0) ∧
      ZeroArg off ∧ ∃ l k c s : Nat, q.srcHist = .int l ∧ q.destHist = .int k ∧ ch = .int c ∧ q.step = .int s ∧
        0 < l ∧ 0 < k ∧ 0 < c ∧ 0 < s ∧ max (max l k) c * s < source.length
    ((∃ v, discreteCTE source dest cond q ch pt off b mm = .ok v) ↔ valid) ∧
    (discreteCTE source dest cond q ch pt off b mm = .error .valueError ↔ ¬ valid) := by
  intro valid
  have key : (valid ∧ ∃ v, discreteCTE source dest cond q ch pt off b mm = .ok v) ∨
      (¬ valid ∧ discreteCTE source dest cond q ch pt off b mm = .error .valueError) := by
    obtain ⟨c1, c2⟩ := C73_cte_constructor source dest cond pt off
    by_cases hv : ∃ z, cond = some z ∧ source.length = dest.length ∧ source.length = z.length ∧ pt = some (.int 0) ∧ ZeroArg off
    · obtain ⟨z, hz, h1, h2, h3, h4⟩ := hv
      have hi := c1 ⟨z, hz, h1, h2, h3, h4⟩ z hz
      have hz2 : z.length = dest.length := by omega
      obtain ⟨g1, g2⟩ := C21_cte_guard_exact source dest z q.srcHist q.destHist ch q.step {} lawful_none.2 h1 hz2
      by_cases hw : ∃ l k c s : Nat, q.srcHist = .int l ∧ q.destHist = .int k ∧ ch = .int c ∧ q.step = .int s ∧
          0 < l ∧ 0 < k ∧ 0 < c ∧ 0 < s ∧ max (max l k) c * s < source.length
      · refine Or.inl ⟨⟨z, hz, h1, h2, h3, h4, hw⟩, ?_⟩
        obtain ⟨l, k, c, s, e1, e2, rfl, e4, hl, hk, hc, hs, hm⟩ := hw
        obtain ⟨_, _, x2, x1, xj, xd, _, _, _, _, _, _, hg⟩ := C24_cte_eq_entropy_combination source dest z l k c s hs hl hk hc
          (by rwa [max_comm k l]) h1 hz2 hov b hb mm
        refine ⟨_, Eq.trans ?_ hg⟩
        have hq : q = teParams l k s := by
          cases q; simp only [teParams] at *; simp [e1, e2, e4]
        have hi' := (C73_cte_constructor source dest (some z) (some (.int 0)) none).1
          ⟨z, rfl, h1, h2, rfl, Or.inl rfl⟩ z rfl
        simp only [discreteCTE, hi, hi', bind, Except.bind, hq]
      · refine Or.inr ⟨?_, ?_⟩
        · rintro ⟨_, _, _, _, _, _, hw'⟩
          exact hw hw'
        · have ho := g2.2 (by
            rintro ⟨l, k, c, s, e1, e2, e3, e4, a1, a2, a3, a4, a5, _⟩
            exact hw ⟨l, k, c, s, e1, e2, e3, e4, a1, a2, a3, a4, a5⟩)
          simp only [discreteCTE, hi, bind, Except.bind, ho]
    · refine Or.inr ⟨?_, ?_⟩
      · rintro ⟨z, hz, h1, h2, h3, h4, _⟩
        exact hv ⟨z, hz, h1, h2, h3, h4⟩
      · simp only [discreteCTE, c2 hv, bind, Except.bind]
  rcases key with ⟨h1, v, h3⟩ | ⟨h1, h3⟩ <;> rw [h3] <;> simp [h1]

/-- non-vacuity: a shifted call with step 2 that is accepted -/
example : AsksShift none (some (.int (-1))) (-1) ∧ ((-1 : Int).natAbs * 2 + max 2 1 * 2 < [(0 : Int), 1, 1, 0, 1, 0, 0].length) :=
  ⟨Or.inr ⟨by simp [ZeroArg], Or.inl rfl, rfl⟩, by decide⟩

end Verif
