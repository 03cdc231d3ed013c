import Verif.Model.EndToEndEffective
import Verif.Props.EndToEndTest2

/-!
# C88: the effective value end to end
-/

namespace Verif

open Spec

section
variable {G : Type} {E : TestEnv G} {W : World} {mth : Option String} {g : G}
  {data : List PyData} {c : Option PyData} {meas : String} {a : PyName} {kw : Kw} {k : Kind} {f : Fam}

/-- the effective value of a (conditional) transfer-entropy object, as a computation -/
theorem run_eff_eq (F : World → TEFlags → G → Except Exc ℝ) :
    (effectiveValTE (fun fl g => ((F (W.withDraw (E.normal g)) fl g).map CalcRes.scalar, E.next g))
      (fun _ => .error .attributeError) E.cfg mth ⟨{ rng := g }, none, none⟩).1 = (do
      let a ← testArgs E.cfg (some (.int 1)) mth
      match methodFlags a.2 with
      | none => .error .valueError
      | some fl => do
        let v ← F (W.withDraw (E.normal g)) fl g
        let obs ← F (W.withDraw (E.normal (E.next g))) {} (E.next g)
        .ok (obs - v)) := by
  unfold effectiveValTE statTestTE
  cases ha : testArgs E.cfg (some (.int 1)) mth with
  | error e => rfl
  | ok a =>
    obtain ⟨n, mm⟩ := a
    have hn : n = 1 := by
      simp only [testArgs, nTestsArg, PyArg.posInt, PyArg.val, bind, Except.bind, pure, Except.pure] at ha
      cases hm : methodArg E.cfg mth with
      | error e => rw [hm] at ha; simp at ha
      | ok q => rw [hm] at ha; simp at ha; exact ha.1.symm
    subst hn
    simp only [bind, Except.bind, testTE]
    cases hfl : methodFlags mm with
    | none => rfl
    | some fl =>
      have e1 : ((1 : Int).toNat) = 1 := rfl
      simp only [e1, teLoop]
      cases F (W.withDraw (E.normal g)) fl g with
      | error e => rfl
      | ok v =>
        simp only [Except.map, List.mapM_cons, List.mapM_nil, testValue, bind, Except.bind, pure, Except.pure, EstObj.globalVal, EstObj.calculate, teCode]
        cases F (W.withDraw (E.normal (E.next g))) {} (E.next g) with
        | error e => rfl
        | ok o => rfl

/-- value and effective value of one call come from the same object -/
theorem eff_eval (hk : Asks W.lower meas data c k) (hn : Names W.lower k a f) :
    (∃ x, (∀ d, imEstimator (W.withDraw d) data a kw c (.str meas) = .error x) ∧
      imEffective E W mth g data c (.str meas) a kw = some (.error x)) ∨
    ∃ p, ctorParams W.b0 { cls := ⟨k, f⟩, data := data, cond := condOf c, kw := factoryKw c kw k } = .ok p ∧
      (∀ d, imEstimator (W.withDraw d) data a kw c (.str meas) = Est.result (W.withDraw d) ⟨⟨k, f⟩, data, c, p⟩) ∧
      imEffective E W mth g data c (.str meas) a kw = Est.effective E W mth g ⟨⟨k, f⟩, data, c, p⟩ := by
  have h := asks_call (kw := kw) hk hn
  have h' : ∀ d, callEstimator (W.withDraw d).lower PyVal.int data c (.str meas) a kw =
      .ok { cls := ⟨k, f⟩, data := data, cond := condOf c, kw := factoryKw c kw k } := fun d => h
  unfold imEstimator imEffective
  simp only [h, h', runCall, bind, Except.bind, buildEst, condOf_toOption]
  cases hp : ctorParams W.b0 { cls := ⟨k, f⟩, data := data, cond := condOf c, kw := factoryKw c kw k } with
  | error x =>
    left
    refine ⟨x, fun d => ?_, rfl⟩
    rw [show (W.withDraw d).b0 = W.b0 from rfl, hp]
  | ok p =>
    right
    refine ⟨p, rfl, fun d => ?_, rfl⟩
    rw [show (W.withDraw d).b0 = W.b0 from rfl, hp]
    rfl

theorem eff_te_eq {x y : PyData} (hk : Asks W.lower meas [x, y] none .te) (hn : Names W.lower .te a f) :
    (∃ e, (∀ d, imEstimator (W.withDraw d) [x, y] a kw none (.str meas) = .error e) ∧
      imEffective E W mth g [x, y] none (.str meas) a kw = some (.error e)) ∨
    imEffective E W mth g [x, y] none (.str meas) a kw = none ∨
    ∃ (β α : Type) (conv : PyData → Option (List β)) (prep : (Nat → Nat → Nat → ℝ) → Nat → Nat → List β → Except Exc (List α))
      (Φ : TESlices α → Except Exc ℝ) (p : Kw) (u o : Option PyArg) (q : TEParams) (xs ys : List β),
      ctorParams W.b0 { cls := ⟨.te, f⟩, data := [x, y], cond := condOf none, kw := factoryKw none kw .te } = .ok p ∧
      (p "prop_time").bind PyVal.toOptArg = some u ∧ (p "offset").bind PyVal.toOptArg = some o ∧
      (p "src_hist_len").bind PyVal.toArg = some q.srcHist ∧ (p "dest_hist_len").bind PyVal.toArg = some q.destHist ∧
      (p "step_size").bind PyVal.toArg = some q.step ∧
      conv x = some xs ∧ conv y = some ys ∧
      (∀ d x' y' xs' ys', conv x' = some xs' → conv y' = some ys' → imEstimator (W.withDraw d) [x', y'] a kw none (.str meas) =
        viaTables (prep d) Φ u o q.srcHist q.destHist q.step xs' ys' List.range) ∧
      imEffective E W mth g [x, y] none (.str meas) a kw = some (do
        let t ← testArgs E.cfg (some (.int 1)) mth
        match methodFlags t.2 with
        | none => .error .valueError
        | some _ => do
          let v ← viaTables (prep (E.normal g)) Φ u o q.srcHist q.destHist q.step xs ys (fun n => (drawn E t.2 n g).1)
          let obs ← imEstimator (W.withDraw (E.normal (E.next g))) [x, y] a kw none (.str meas)
          .ok (obs - v)) := by
  rcases eff_eval (E := E) (mth := mth) (g := g) (kw := kw) hk hn with ⟨e, h1, h2⟩ | ⟨p, hp, h1, h2⟩
  · exact .inl ⟨e, h1, h2⟩
  rw [h2]
  have hT : Est.effective E W mth g ⟨⟨.te, f⟩, [x, y], none, p⟩ =
      (Est.teObj W ⟨⟨.te, f⟩, [x, y], none, p⟩).map (fun r => r >>= TEObj.effective E W mth g) := rfl
  rw [hT]
  cases hob : Est.teObj W ⟨⟨.te, f⟩, [x, y], none, p⟩ with
  | none => right; left; rfl
  | some r =>
    have hres : ∀ d, imEstimator (W.withDraw d) [x, y] a kw none (.str meas) = (r >>= fun f => f (W.withDraw d) {}) := fun d => by
      rw [h1 d]; exact result_te rfl ((teObj_draw W _ d).trans hob)
    cases r with
    | error e => exact .inl ⟨e, fun d => hres d, rfl⟩
    | ok ob =>
      right; right
      obtain ⟨β, α, hα, conv, prep, Φ, u, o, q, xs, ys, hu, ho, hq, hx, hy, hL, hF, hpin⟩ := teObj_form (e := ⟨⟨.te, f⟩, [x, y], none, p⟩) rfl hob
      unfold Est.te at hq
      obtain ⟨l, hl, hq⟩ := Option.bind_eq_some_iff.1 hq
      obtain ⟨kk, hkk, hq⟩ := Option.bind_eq_some_iff.1 hq
      obtain ⟨st, hst, hq⟩ := Option.bind_eq_some_iff.1 hq
      cases hq
      have pin : ∀ d x' y' xs' ys', conv x' = some xs' → conv y' = some ys' → imEstimator (W.withDraw d) [x', y'] a kw none (.str meas) =
          viaTables (prep d) Φ u o l kk st xs' ys' List.range := by
        intro d x' y' xs' ys' hx' hy'
        have hc : ctorParams (W.withDraw d).b0 { cls := ⟨.te, f⟩, data := [x', y'], cond := condOf none, kw := factoryKw none kw .te } = .ok p :=
          (ctor_data W.b0 _ [x, y] [x', y'] (condOf none) _ rfl).trans hp
        rw [call_eval (W := W.withDraw d) (asks_te hk) hn hc]
        have := hpin d x' y' xs' ys' hx' hy'
        unfold Est.result
        simp only [split_te_value, this, Option.getD_some]
        exact viaObs_select hL d Φ u o l kk st xs' ys' lawful_none
      refine ⟨β, α, conv, prep, Φ, p, u, o, { srcHist := l, destHist := kk, step := st }, xs, ys, hp, hu, ho, hl, hkk, hst, hx, hy, pin, ?_⟩
      simp only [Option.map_some, Option.some.injEq]
      show TEObj.effective E W mth g ob = _
      unfold TEObj.effective
      rw [run_eff_eq (F := fun W fl g => ob W (teRandom E.rng fl g))]
      congr 1; funext t
      cases hfl : methodFlags t.2 with
      | none => rfl
      | some fl =>
        have e1 : ∀ g', viaObs (prep (E.normal g')) Φ u o l kk st xs ys (teRandom E.rng fl g') =
            viaTables (prep (E.normal g')) Φ u o l kk st xs ys (fun n => (drawn E t.2 n g').1) := fun g' => by
          rw [viaObs_select hL _ Φ u o l kk st xs ys (teRandom_lawful E.rng hfl g')]
          congr 1
          funext n
          exact srcSel_teRandom E hfl g' n
        have e2 : ∀ g', viaObs (prep (E.normal g')) Φ u o l kk st xs ys (teRandom E.rng {} g') =
            viaTables (prep (E.normal g')) Φ u o l kk st xs ys List.range := fun g' =>
          viaObs_select hL _ Φ u o l kk st xs ys lawful_none
        simp only [hF, pin _ x y xs ys hx hy, e1, e2]

theorem eff_cte_eq {z : PyData} (hk : Asks W.lower meas data (some z) .cte) (hn : Names W.lower .cte a f) :
    (∃ e, (∀ d, imEstimator (W.withDraw d) data a kw (some z) (.str meas) = .error e) ∧
      imEffective E W mth g data (some z) (.str meas) a kw = some (.error e)) ∨
    imEffective E W mth g data (some z) (.str meas) a kw = none ∨
      imEffective E W mth g data (some z) (.str meas) a kw = some (do
        let t ← testArgs E.cfg (some (.int 1)) mth
        match methodFlags t.2 with
        | none => .error .valueError
        | some _ => do
          let v ← imEstimator (W.withDraw (E.normal g)) data a kw (some z) (.str meas)
          let obs ← imEstimator (W.withDraw (E.normal (E.next g))) data a kw (some z) (.str meas)
          .ok (obs - v)) := by
  rcases eff_eval (E := E) (mth := mth) (g := g) (kw := kw) hk hn with ⟨e, h1, h2⟩ | ⟨p, hp, h1, h2⟩
  · exact .inl ⟨e, h1, h2⟩
  rw [h2]
  have hT : Est.effective E W mth g ⟨⟨.cte, f⟩, data, some z, p⟩ =
      (Est.cteObj W ⟨⟨.cte, f⟩, data, some z, p⟩).map (fun r => r >>= CTEObj.effective E W mth g) := rfl
  rw [hT]
  cases hob : Est.cteObj W ⟨⟨.cte, f⟩, data, some z, p⟩ with
  | none => right; left; rfl
  | some r =>
    have hres : ∀ d, imEstimator (W.withDraw d) data a kw (some z) (.str meas) = (r >>= fun f => f (W.withDraw d)) := fun d => by
      rw [h1 d]; exact result_cte rfl ((cteObj_draw W _ d).trans hob)
    cases r with
    | error e => exact .inl ⟨e, fun d => hres d, rfl⟩
    | ok ob =>
      right; right
      simp only [Option.map_some, Option.some.injEq]
      show CTEObj.effective E W mth g ob = _
      unfold CTEObj.effective
      rw [run_eff_eq (F := fun W _ _ => ob W)]
      have hres' : ∀ d, imEstimator (W.withDraw d) data a kw (some z) (.str meas) = ob (W.withDraw d) := fun d => hres d
      simp only [hres']

/-- the method of `effective_val` is looked up like that of a test: the argument, or the setting -/
theorem effMethod {t : Int × String} (h : testArgs E.cfg (some (.int 1)) mth = .ok t) : methodArg E.cfg mth = .ok t.2 := by
  simp only [testArgs, nTestsArg, PyArg.posInt, PyArg.val, bind, Except.bind, pure, Except.pure] at h
  cases hm : methodArg E.cfg mth with
  | error e => rw [hm] at h; simp at h
  | ok q => rw [hm] at h; simp at h; rw [← h]

theorem methodFlags_known {m : String} : (∃ fl, methodFlags m = some fl) ↔ KnownMethod m := by
  unfold methodFlags KnownMethod
  split_ifs with e1 e2 <;> simp_all

/-- the argument of a call of a (conditional) transfer entropy, read with its default -/
theorem te_arg {p : Kw} (hp : ctorParams W.b0 { cls := ⟨.te, f⟩, data := data, cond := condOf none, kw := factoryKw none kw .te } = .ok p)
    {kk : String} {dd : PyVal} (hmem : (kk, dd) ∈ commonKw W.b0 .te) (hor : kk = "offset" ∨ teDefault PyVal.int kk = some dd ∧ kk ≠ "cond_hist_len") :
    p kk = some (kwOr kw kk dd) := by
  have := (C81_values W.b0 _ p hp).2 (kk, dd) (by unfold optionalKw; simp only [List.mem_append]; exact .inr hmem)
  rw [this]
  simp only [factoryKw, factoryTeKw]
  rcases hor with rfl | ⟨hd, hne⟩
  · simp [teKw, restKw, namedParams, kwOr]
  · have : kk ∈ ["prop_time", "src_hist_len", "dest_hist_len", "step_size"] := by
      unfold teDefault at hd
      split_ifs at hd with e1 e2
      · simp [e1]
      · rcases e2 with e | e | e | e <;> simp [e] at hne ⊢
    simp only [teKw, if_pos this, hd, kwOr]
    cases kw kk <;> rfl

/-- **C88** The effective transfer entropy, for every approach: the transfer entropy of the data given minus one value of `Φ` of the same tables with
drawn rows of the source history; the draw follows the method given, or the configured one. -/
theorem C88_te {x y : PyData} (hk : Asks W.lower meas [x, y] none .te) (hn : Names W.lower .te a f) {v : ℝ}
    (h : imEffective E W mth g [x, y] none (.str meas) a kw = some (.ok v)) :
    ∃ m, methodArg E.cfg mth = .ok m ∧ KnownMethod m ∧
    ∃ (β α : Type) (conv : PyData → Option (List β)) (prep : (Nat → Nat → Nat → ℝ) → Nat → Nat → List β → Except Exc (List α))
      (Φ : TESlices α → Except Exc ℝ) (u o : Option PyArg) (l dh s : PyArg) (xs ys : List β) (obs w : ℝ),
      (kwOr kw "prop_time" (.int 0)).toOptArg = some u ∧ (kwOr kw "offset" .none).toOptArg = some o ∧
      (kwOr kw "src_hist_len" (.int 1)).toArg = some l ∧ (kwOr kw "dest_hist_len" (.int 1)).toArg = some dh ∧
      (kwOr kw "step_size" (.int 1)).toArg = some s ∧
      conv x = some xs ∧ conv y = some ys ∧
      (∀ d x' y' xs' ys', conv x' = some xs' → conv y' = some ys' → imEstimator (W.withDraw d) [x', y'] a kw none (.str meas) =
        viaTables (prep d) Φ u o l dh s xs' ys' List.range) ∧
      imEstimator (W.withDraw (E.normal (E.next g))) [x, y] a kw none (.str meas) = .ok obs ∧
      viaTables (prep (E.normal g)) Φ u o l dh s xs ys (fun n => (drawn E m n g).1) = .ok w ∧
      v = obs - w := by
  rcases eff_te_eq (E := E) (mth := mth) (g := g) (kw := kw) hk hn with
    ⟨e, -, h2⟩ | h2 | ⟨β, α, conv, prep, Φ, p, u, o, q, xs, ys, hp, hu, ho, hl, hm, hs, hx, hy, pin, h2⟩
  · rw [h2] at h; cases h
  · rw [h2] at h; cases h
  · rw [h2] at h
    obtain ⟨t, ht, h⟩ := chk_bind (Option.some.inj h)
    cases hfl : methodFlags t.2 with
    | none => rw [hfl] at h; cases h
    | some fl =>
      rw [hfl] at h
      obtain ⟨w, hw, h⟩ := chk_bind h
      obtain ⟨obs, hob, h⟩ := chk_bind h
      cases h
      rw [te_arg hp (kk := "prop_time") (dd := .int 0) (by simp [commonKw]) (.inr ⟨by simp [teDefault], by decide⟩)] at hu
      rw [te_arg hp (kk := "offset") (dd := .none) (by simp [commonKw]) (.inl rfl)] at ho
      rw [te_arg hp (kk := "src_hist_len") (dd := .int 1) (by simp [commonKw]) (.inr ⟨by simp [teDefault], by decide⟩)] at hl
      rw [te_arg hp (kk := "dest_hist_len") (dd := .int 1) (by simp [commonKw]) (.inr ⟨by simp [teDefault], by decide⟩)] at hm
      rw [te_arg hp (kk := "step_size") (dd := .int 1) (by simp [commonKw]) (.inr ⟨by simp [teDefault], by decide⟩)] at hs
      exact ⟨t.2, effMethod ht, methodFlags_known.1 ⟨fl, hfl⟩, β, α, conv, prep, Φ, u, o, q.srcHist, q.destHist, q.step, xs, ys, obs, w,
        hu, ho, hl, hm, hs, hx, hy, pin, hob, hw, rfl⟩

/-- **C88** The effective value is one test value short of a test: a test on the same generator that starts with the same draw has the same first
test value `w`, and the effective value is the transfer entropy of the data (with the noise of the following state) minus it. -/
theorem C88_first_test_value {x y : PyData} (hk : Asks W.lower meas [x, y] none .te) (hn : Names W.lower .te a f) {v : ℝ} {r : StatRes}
    {nT : Option PyArg} (h : imEffective E W mth g [x, y] none (.str meas) a kw = some (.ok v))
    (hr : imTest E W nT mth g [x, y] none (.str meas) a kw = some (.ok r)) :
    ∃ w obs, r.testValues.head? = some w ∧ imEstimator (W.withDraw (E.normal (E.next g))) [x, y] a kw none (.str meas) = .ok obs ∧ v = obs - w := by
  rcases eff_eval (E := E) (mth := mth) (g := g) (kw := kw) hk hn with ⟨e, -, h2⟩ | ⟨p, hp, h1, h2⟩
  · rw [h2] at h; cases h
  rcases test_eval (E := E) (nT := nT) (mth := mth) (g := g) (kw := kw) hk hn with ⟨e, -, h2'⟩ | ⟨p', hp', h1', h2'⟩
  · rw [h2'] at hr; cases hr
  rw [hp] at hp'; cases hp'
  rw [h2] at h
  rw [h2'] at hr
  change (Est.teObj W ⟨⟨.te, f⟩, [x, y], none, p⟩).map (fun r => r >>= TEObj.effective E W mth g) = _ at h
  change (Est.teObj W ⟨⟨.te, f⟩, [x, y], none, p⟩).map (fun r => r >>= TEObj.test E W nT mth g) = _ at hr
  cases hob : Est.teObj W ⟨⟨.te, f⟩, [x, y], none, p⟩ with
  | none => rw [hob] at h; cases h
  | some q =>
    have hres : ∀ d, imEstimator (W.withDraw d) [x, y] a kw none (.str meas) = (q >>= fun f => f (W.withDraw d) {}) := fun d => by
      rw [h1 d]; exact result_te rfl ((teObj_draw W _ d).trans hob)
    rw [hob] at h hr
    cases q with
    | error e => cases h
    | ok ob =>
      have h : TEObj.effective E W mth g ob = .ok v := Option.some.inj h
      have hr : TEObj.test E W nT mth g ob = .ok r := Option.some.inj hr
      unfold TEObj.effective at h
      unfold TEObj.test at hr
      rw [run_eff_eq (F := fun W fl g => ob W (teRandom E.rng fl g))] at h
      rw [run_te_eq (F := fun W fl g => ob W (teRandom E.rng fl g))] at hr
      obtain ⟨t, ht, h⟩ := chk_bind h
      obtain ⟨t', ht', hr⟩ := chk_bind hr
      have hm : t'.2 = t.2 := by
        have h1 := effMethod ht
        have h2 : methodArg E.cfg mth = .ok t'.2 := by
          unfold testArgs at ht'
          obtain ⟨n, -, ht'⟩ := chk_bind ht'
          obtain ⟨m, hm, ht'⟩ := chk_bind ht'
          split_ifs at ht'
          cases ht'; exact hm
        rw [h1] at h2; exact (Except.ok.inj h2).symm
      rw [hm] at hr
      cases hfl : methodFlags t.2 with
      | none => rw [hfl] at h; cases h
      | some fl =>
        rw [hfl] at h hr
        obtain ⟨w, hw, h⟩ := chk_bind h
        obtain ⟨obs, hobs, h⟩ := chk_bind h
        obtain ⟨vs, hvs, hr⟩ := chk_bind hr
        obtain ⟨obs', hobs', hr⟩ := chk_bind hr
        cases h
        have hlen : vs.length = t'.1.toNat := by rw [mapM_length hvs, states_len]
        obtain ⟨-, etv, -⟩ := consistent_of (testArgs_pos ht') hlen hr
        rw [etv]
        refine ⟨w, obs, ?_, (hres _).trans hobs, rfl⟩
        have hpos := testArgs_pos ht'
        obtain ⟨n', hn'⟩ : ∃ n', t'.1.toNat = n' + 1 := ⟨t'.1.toNat - 1, by omega⟩
        rw [hn'] at hvs
        have hvs' := mapM_forall2.1 hvs
        simp only [states] at hvs'
        cases hvs' with
        | cons h0 _ =>
          rw [hw] at h0
          cases h0
          rfl

/-- **C88** The converse: where a test of the transfer entropy succeeds, so does the effective value with the same method, provided the transfer entropy
of the data is defined whatever noise is added. -/
theorem C88_te_succeeds {x y : PyData} (hk : Asks W.lower meas [x, y] none .te) (hn : Names W.lower .te a f) {r : StatRes}
    {nT : Option PyArg} (hr : imTest E W nT mth g [x, y] none (.str meas) a kw = some (.ok r))
    (hobs : ∀ d, ∃ v, imEstimator (W.withDraw d) [x, y] a kw none (.str meas) = .ok v) :
    ∃ v, imEffective E W mth g [x, y] none (.str meas) a kw = some (.ok v) := by
  rcases eff_eval (E := E) (mth := mth) (g := g) (kw := kw) hk hn with ⟨e, h2, -⟩ | ⟨p, hp, h1, h2⟩
  · obtain ⟨v, hv⟩ := hobs (fun _ _ _ => 0)
    rw [h2] at hv; cases hv
  rcases test_eval (E := E) (nT := nT) (mth := mth) (g := g) (kw := kw) hk hn with ⟨e, -, h2'⟩ | ⟨p', hp', h1', h2'⟩
  · rw [h2'] at hr; cases hr
  rw [hp] at hp'; cases hp'
  rw [h2]
  rw [h2'] at hr
  change ∃ v, (Est.teObj W ⟨⟨.te, f⟩, [x, y], none, p⟩).map (fun r => r >>= TEObj.effective E W mth g) = some (.ok v)
  change (Est.teObj W ⟨⟨.te, f⟩, [x, y], none, p⟩).map (fun r => r >>= TEObj.test E W nT mth g) = _ at hr
  cases hob : Est.teObj W ⟨⟨.te, f⟩, [x, y], none, p⟩ with
  | none => rw [hob] at hr; cases hr
  | some q =>
    have hres : ∀ d, imEstimator (W.withDraw d) [x, y] a kw none (.str meas) = (q >>= fun f => f (W.withDraw d) {}) := fun d => by
      rw [h1 d]; exact result_te rfl ((teObj_draw W _ d).trans hob)
    rw [hob] at hr
    cases q with
    | error e => cases hr
    | ok ob =>
      have hr : TEObj.test E W nT mth g ob = .ok r := Option.some.inj hr
      have hgoal : ∃ v, TEObj.effective E W mth g ob = .ok v := by
        unfold TEObj.effective
        unfold TEObj.test at hr
        rw [run_eff_eq (F := fun W fl g => ob W (teRandom E.rng fl g))]
        rw [run_te_eq (F := fun W fl g => ob W (teRandom E.rng fl g))] at hr
        obtain ⟨t', ht', hr⟩ := chk_bind hr
        have hm : methodArg E.cfg mth = .ok t'.2 := by
          unfold testArgs at ht'
          obtain ⟨n, -, ht'⟩ := chk_bind ht'
          obtain ⟨m, hm, ht'⟩ := chk_bind ht'
          split_ifs at ht'
          cases ht'; exact hm
        have ha : testArgs E.cfg (some (.int 1)) mth = .ok (1, t'.2) := by
          simp [testArgs, nTestsArg, PyArg.posInt, PyArg.val, hm, bind, Except.bind, pure, Except.pure]
        cases hfl : methodFlags t'.2 with
        | none => rw [hfl] at hr; cases hr
        | some fl =>
          rw [hfl] at hr
          obtain ⟨vs, hvs, hr⟩ := chk_bind hr
          have hpos := testArgs_pos ht'
          obtain ⟨n', hn'⟩ : ∃ n', t'.1.toNat = n' + 1 := ⟨t'.1.toNat - 1, by omega⟩
          rw [hn'] at hvs
          have hvs' := mapM_forall2.1 hvs
          simp only [states] at hvs'
          cases hvs' with
          | cons h0 _ =>
            obtain ⟨obs, hobs⟩ := hobs (E.normal (E.next g))
            have hobs' : ob (W.withDraw (E.normal (E.next g))) {} = .ok obs := (hres _).symm.trans hobs
            have e0 : teRandom E.rng {} (E.next g) = {} := rfl
            rename_i w0 _ _
            refine ⟨obs - w0, ?_⟩
            simp only [ha, bind, Except.bind, hfl]
            simp only [e0, hobs']
            rw [h0]
      obtain ⟨v, hv⟩ := hgoal
      exact ⟨v, congrArg some hv⟩

/-- **C88** Finding: the effective conditional transfer entropy subtracts the conditional transfer entropy of the same data, so it is 0 for every data
set and method, whatever the measured value (unless the approach adds noise, and then it is a difference of two noisy values). -/
theorem C88_cte {z : PyData} (hk : Asks W.lower meas data (some z) .cte) (hn : Names W.lower .cte a f) {v : ℝ}
    (h : imEffective E W mth g data (some z) (.str meas) a kw = some (.ok v)) :
    (∃ m, methodArg E.cfg mth = .ok m ∧ KnownMethod m) ∧
    (∃ obs w, imEstimator (W.withDraw (E.normal (E.next g))) data a kw (some z) (.str meas) = .ok obs ∧
      imEstimator (W.withDraw (E.normal g)) data a kw (some z) (.str meas) = .ok w ∧ v = obs - w) ∧
    ((∀ d d', imEstimator (W.withDraw d) data a kw (some z) (.str meas) = imEstimator (W.withDraw d') data a kw (some z) (.str meas)) → v = 0) := by
  rcases eff_cte_eq (E := E) (mth := mth) (g := g) (kw := kw) hk hn with ⟨e, -, h2⟩ | h2 | h2
  · rw [h2] at h; cases h
  · rw [h2] at h; cases h
  · rw [h2] at h
    obtain ⟨t, ht, h⟩ := chk_bind (Option.some.inj h)
    cases hfl : methodFlags t.2 with
    | none => rw [hfl] at h; cases h
    | some fl =>
      rw [hfl] at h
      obtain ⟨w, hw, h⟩ := chk_bind h
      obtain ⟨obs, hob, h⟩ := chk_bind h
      cases h
      refine ⟨⟨t.2, effMethod ht, methodFlags_known.1 ⟨fl, hfl⟩⟩, ⟨obs, w, hob, hw, rfl⟩, fun hd => ?_⟩
      rw [hd _ (E.normal g), hw] at hob
      cases hob
      exact sub_self _

/-- **C88** The converse for conditional transfer entropy. -/
theorem C88_cte_succeeds {z : PyData} (hk : Asks W.lower meas data (some z) .cte) (hn : Names W.lower .cte a f) {m : String}
    (hmod : imEffective E W mth g data (some z) (.str meas) a kw ≠ none)
    (ht : methodArg E.cfg mth = .ok m) (hm : KnownMethod m)
    (hobs : ∀ d, ∃ v, imEstimator (W.withDraw d) data a kw (some z) (.str meas) = .ok v) :
    ∃ v, imEffective E W mth g data (some z) (.str meas) a kw = some (.ok v) := by
  rcases eff_cte_eq (E := E) (mth := mth) (g := g) (kw := kw) hk hn with ⟨e, h1, -⟩ | h1 | h1
  · obtain ⟨v, hv⟩ := hobs (fun _ _ _ => 0)
    rw [h1] at hv; cases hv
  · exact absurd h1 hmod
  · rw [h1]
    obtain ⟨w, hw⟩ := hobs (E.normal g)
    obtain ⟨obs, hob⟩ := hobs (E.normal (E.next g))
    obtain ⟨fl, hfl⟩ := methodFlags_known.2 hm
    have ha : testArgs E.cfg (some (.int 1)) mth = .ok (1, m) := by
      simp [testArgs, nTestsArg, PyArg.posInt, PyArg.val, ht, bind, Except.bind, pure, Except.pure]
    exact ⟨obs - w, by simp only [ha, bind, Except.bind, hfl, hob, hw]⟩

/-- **C88** An unknown method is a ValueError, a configured method that is no string what its check raises. -/
theorem C88_rejects {x y : PyData} (hk : Asks W.lower meas [x, y] c k) (hkk : k = .te ∨ k = .cte) (hn : Names W.lower k a f)
    {d : Nat → Nat → Nat → ℝ} {v : ℝ} (hv : imEstimator (W.withDraw d) [x, y] a kw c (.str meas) = .ok v)
    (hmod : imEffective E W mth g [x, y] c (.str meas) a kw ≠ none) :
    (∀ e, methodArg E.cfg mth = .error e → imEffective E W mth g [x, y] c (.str meas) a kw = some (.error e)) ∧
    (∀ m, methodArg E.cfg mth = .ok m → ¬ KnownMethod m → imEffective E W mth g [x, y] c (.str meas) a kw = some (.error .valueError)) := by
  have h0 : ∀ m, ¬ KnownMethod m → methodFlags m = none := by
    intro m hm
    cases h : methodFlags m with
    | none => rfl
    | some fl => exact absurd (methodFlags_known.1 ⟨fl, h⟩) hm
  have ha : testArgs E.cfg (some (.int 1)) mth = (methodArg E.cfg mth).map (fun m => (1, m)) := by
    simp [testArgs, nTestsArg, PyArg.posInt, PyArg.val, bind, Except.bind, pure, Except.pure]
    cases methodArg E.cfg mth <;> rfl
  rcases hkk with rfl | rfl
  · obtain ⟨-, rfl, -⟩ := id hk
    rcases eff_te_eq (E := E) (mth := mth) (g := g) (kw := kw) hk hn with
      ⟨e, h1, -⟩ | h1 | ⟨β, α, conv, prep, Φ, p, u, o, q, xs, ys, -, -, -, -, -, -, -, -, -, h1⟩
    · rw [h1] at hv; cases hv
    · exact absurd h1 hmod
    · rw [h1, ha]
      exact ⟨fun e he => by rw [he]; rfl, fun m hm hu => by rw [hm]; simp only [Except.map, bind, Except.bind, h0 _ hu]⟩
  · obtain ⟨z, rfl⟩ := Option.isSome_iff_exists.1 hk.2.1
    rcases eff_cte_eq (E := E) (mth := mth) (g := g) (kw := kw) hk hn with ⟨e, h1, -⟩ | h1 | h1
    · rw [h1] at hv; cases hv
    · exact absurd h1 hmod
    · rw [h1, ha]
      exact ⟨fun e he => by rw [he]; rfl, fun m hm hu => by rw [hm]; simp only [Except.map, bind, Except.bind, h0 _ hu]⟩

/-- **C88** Entropies and (conditional) mutual information have no effective value: an AttributeError, once the estimator is built. -/
theorem C88_no_effective (hk : Asks W.lower meas data c k) (hkk : k = .h ∨ k = .mi ∨ k = .cmi) (hn : Names W.lower k a f)
    {d : Nat → Nat → Nat → ℝ} {v : ℝ} (hv : imEstimator (W.withDraw d) data a kw c (.str meas) = .ok v)
    (hmod : imEffective E W mth g data c (.str meas) a kw ≠ none) :
    imEffective E W mth g data c (.str meas) a kw = some (.error .attributeError) := by
  rcases eff_eval (E := E) (mth := mth) (g := g) (kw := kw) hk hn with ⟨e, h1, -⟩ | ⟨p, hp, h1, h2⟩
  · rw [h1] at hv; cases hv
  rw [h2] at hmod ⊢
  rw [h1] at hv
  rcases hkk with rfl | rfl | rfl
  · rfl
  · cases hob : Est.miObj W ⟨⟨.mi, f⟩, data, c, p⟩ with
    | none => exact absurd (show Est.effective E W mth g ⟨⟨.mi, f⟩, data, c, p⟩ = none by unfold Est.effective; simp only [hob]; rfl) hmod
    | some r =>
      rw [result_mi rfl ((miObj_draw W _ d).trans hob)] at hv
      obtain ⟨ob, rfl, -⟩ := chk_bind hv
      unfold Est.effective; simp only [hob]; rfl
  · cases hob : Est.cmiObj W ⟨⟨.cmi, f⟩, data, c, p⟩ with
    | none => exact absurd (show Est.effective E W mth g ⟨⟨.cmi, f⟩, data, c, p⟩ = none by unfold Est.effective; simp only [hob]; rfl) hmod
    | some r =>
      rw [result_cmi rfl ((cmiObj_draw W _ d).trans hob)] at hv
      obtain ⟨ob, rfl, -⟩ := chk_bind hv
      unfold Est.effective; simp only [hob]; rfl

end

end Verif
