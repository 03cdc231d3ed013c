import Verif.Lemmas.EndToEndTest8
import Verif.Props.EndToEndBase
import Verif.Props.EndToEndLocal

/-!
# C87: statistical tests end to end

`im.estimator(*data, measure=…, approach=…, **kwargs).statistical_test(n_tests, method)` for every approach.
-/

namespace Verif

open Spec

section
variable {G : Type} {E : TestEnv G} {W : World} {nT : Option PyArg} {mth : Option String} {g : G}
  {data : List PyData} {c : Option PyData} {meas : String} {a : PyName} {kw : Kw} {k : Kind} {f : Fam}

/-- value and test of one call come from the same object -/
theorem test_eval (hk : Asks W.lower meas data c k) (hn : Names W.lower k a f) :
    (∃ x, (∀ d, imEstimator (W.withDraw d) data a kw c (.str meas) = .error x) ∧
      imTest E W nT mth g data c (.str meas) a kw = some (.error x)) ∨
    ∃ p, ctorParams W.b0 { cls := ⟨k, f⟩, data := data, cond := condOf c, kw := factoryKw c kw k } = .ok p ∧
      (∀ d, imEstimator (W.withDraw d) data a kw c (.str meas) = Est.result (W.withDraw d) ⟨⟨k, f⟩, data, c, p⟩) ∧
      imTest E W nT mth g data c (.str meas) a kw = Est.test E W nT mth g ⟨⟨k, f⟩, data, c, p⟩ := by
  have h := asks_call (kw := kw) hk hn
  have h' : ∀ d, callEstimator (W.withDraw d).lower PyVal.int data c (.str meas) a kw =
      .ok { cls := ⟨k, f⟩, data := data, cond := condOf c, kw := factoryKw c kw k } := fun d => h
  unfold imEstimator imTest
  simp only [h, h', runCall, bind, Except.bind, buildEst, condOf_toOption]
  cases hp : ctorParams W.b0 { cls := ⟨k, f⟩, data := data, cond := condOf c, kw := factoryKw c kw k } with
  | error x =>
    left
    refine ⟨x, fun d => ?_, rfl⟩
    rw [show (W.withDraw d).b0 = W.b0 from rfl, hp]
  | ok p =>
    right
    refine ⟨p, rfl, fun d => ?_, rfl⟩
    rw [show (W.withDraw d).b0 = W.b0 from rfl, hp]
    rfl

theorem call_eval (hk : Asks W.lower meas data c k) (hn : Names W.lower k a f) {p : Kw}
    (hp : ctorParams W.b0 { cls := ⟨k, f⟩, data := data, cond := condOf c, kw := factoryKw c kw k } = .ok p) :
    imEstimator W data a kw c (.str meas) = Est.result W ⟨⟨k, f⟩, data, c, p⟩ := by
  have h := asks_call (kw := kw) hk hn
  unfold imEstimator
  simp only [h, runCall, bind, Except.bind, buildEst, condOf_toOption, hp]
  rfl

theorem ctor_data {D : Type} (b0 : PyVal) (cls : EstClass) (data data' : List D) (cond : CondKw D) (kw : Kw) (h : data'.length = data.length) :
    ctorParams b0 { cls := cls, data := data', cond := cond, kw := kw } = ctorParams b0 { cls := cls, data := data, cond := cond, kw := kw } := by
  unfold ctorParams callKw
  simp only [h]

theorem offset_optional (b0 : PyVal) (f : Fam) : ("offset", PyVal.int 0) ∈ optionalKw b0 ⟨.mi, f⟩ := by
  cases f <;> simp [optionalKw, ownKw, commonKw]

/-- the parameters of the same call with the offset 0 -/
theorem off_ctor {b0 : PyVal} {kw p : Kw} (h : ctorParams b0 { cls := ⟨.mi, f⟩, data := data, cond := condOf none, kw := restKw kw } = .ok p) :
    p "offset" = some (kwOr kw "offset" (.int 0)) ∧
    ∃ p', ctorParams b0 { cls := ⟨.mi, f⟩, data := data, cond := condOf none, kw := restKw (noOffset kw) } = .ok p' ∧ OffTwin p p' := by
  have hr : restKw (noOffset kw) = Kw.set (restKw kw) "offset" (.int 0) := by
    funext j
    unfold restKw noOffset Kw.set
    by_cases hj : j = "offset"
    · subst hj; simp [namedParams]
    · simp [hj]
  have hv := (C81_values b0 _ p h).2 _ (offset_optional b0 f)
  have hk : restKw kw "offset" = kw "offset" := by simp [restKw, namedParams]
  simp only [hk] at hv
  refine ⟨hv, ?_⟩
  rw [hr]
  cases ho : kw "offset" with
  | none =>
    refine ⟨p, ?_, ?_, fun _ _ => rfl⟩
    · rw [← h]
      exact C81_explicit_default b0 ⟨⟨.mi, f⟩, data, condOf none, restKw kw⟩ "offset" (.int 0) (offset_optional b0 f) (hk.trans ho)
    · rw [hv, ho]; rfl
  | some v =>
    have hs : restKw kw = Kw.set (restKw kw) "offset" v := by
      funext j
      by_cases hj : j = "offset"
      · subst hj; rw [kw_set_self, hk, ho]
      · rw [kw_set_ne _ _ hj]
    rw [hs] at h
    rcases twin_ctor (key := "offset") (v := v) (w := .int 0) b0 ⟨.mi, f⟩ data (condOf none) (restKw kw) (by decide) with ⟨e, e1, -⟩ | ⟨q, p', e1, e2, hp⟩
    · rw [h] at e1; cases e1
    · rw [h] at e1
      cases e1
      refine ⟨p', e2, ?_, fun j hj => (hp.1 j hj).symm⟩
      have := (C81_values b0 _ p' e2).2 _ (offset_optional b0 f)
      simpa [kw_set_self] using this

/-! ## Rounds -/

theorem dRounds_rounds {D : Type} {rs : D → G → D × G} {mm : String} {X : D} {N : Nat} {pickD : List Nat → D}
    (h : ∀ g, rs X g = (pickD (drawn E mm N g).1, (drawn E mm N g).2)) (n : Nat) (g : G) :
    dRounds rs E.next X n g = (rounds E mm N n g).map (fun d => (pickD d.1, d.2)) ∧ dAfter rs E.next X n g = afterRounds E mm N n g := by
  induction n generalizing g with
  | zero => exact ⟨rfl, rfl⟩
  | succ n ih =>
    obtain ⟨h1, h2⟩ := ih (E.next (drawn E mm N g).2)
    simp only [dRounds, rounds, dAfter, afterRounds, List.map_cons, h, h1, h2, and_self]

theorem drawn_lt (mm : String) (N : Nat) (g : G) : ∀ i ∈ (drawn E mm N g).1, i < N := by
  intro i hi
  unfold drawn at hi
  split_ifs at hi
  · exact List.mem_range.1 ((E.rng.perm_spec N g).mem_iff.1 hi)
  · exact E.rng.choice_lt _ _ _ hi

theorem drawn_length (mm : String) (N : Nat) (g : G) : (drawn E mm N g).1.length = N := by
  unfold drawn
  split_ifs
  · simpa using (E.rng.perm_spec N g).length_eq
  · exact E.rng.choice_len _ _

theorem mem_rounds {mm : String} {N n : Nat} {g : G} {d : List Nat × G} (h : d ∈ rounds E mm N n g) :
    (∀ i ∈ d.1, i < N) ∧ d.1.length = N := by
  induction n generalizing g with
  | zero => cases h
  | succ n ih =>
    rcases List.mem_cons.1 h with rfl | h
    · exact ⟨drawn_lt mm N g, drawn_length mm N g⟩
    · exact ih h

theorem resampler_drawn {α : Type} [Inhabited α] (mm : String) (x : List α) (g : G) :
    (E.rng.resampler (α := α)).ofMethod mm x g = (selectRows x (drawn E mm x.length g).1, (drawn E mm x.length g).2) := by
  unfold Resampler.ofMethod drawn NpRng.resampler
  split_ifs <;> rfl

theorem arrResampler_drawn (mm : String) (x : KVar) (g : G) :
    E.rng.arrResampler.ofMethod mm x g = (x.sel (drawn E mm x.len g).1, (drawn E mm x.len g).2) := by
  unfold Resampler.ofMethod drawn NpRng.arrResampler
  split_ifs <;> rfl

theorem mapM_forall2 {α β : Type} {h : α → Except Exc β} {l : List α} {vs : List β} :
    l.mapM h = .ok vs ↔ List.Forall₂ (fun x v => h x = .ok v) l vs := by
  induction l generalizing vs with
  | nil => exact ⟨fun e => by cases e; exact .nil, fun e => by cases e; rfl⟩
  | cons x l ih =>
    rw [List.mapM_cons]
    simp only [bind, Except.bind]
    constructor
    · intro e
      cases hx : h x with
      | error y => rw [hx] at e; cases e
      | ok v =>
        rw [hx] at e
        simp only at e
        cases hl : l.mapM h with
        | error y => rw [hl] at e; cases e
        | ok us => rw [hl] at e; cases e; exact .cons hx (ih.1 hl)
    · intro e
      cases e with
      | cons h1 h2 => rw [h1, ih.2 h2]; rfl

theorem mapM_congr_mem {α β : Type} {h h' : α → Except Exc β} {l : List α} (e : ∀ x ∈ l, h x = h' x) : l.mapM h = l.mapM h' := by
  induction l with
  | nil => rfl
  | cons x l ih =>
    rw [List.mapM_cons, List.mapM_cons, e x (by simp), ih fun y hy => e y (by simp [hy])]

theorem mapM_map_except {α β γ : Type} {h : β → Except Exc γ} (t : α → β) (l : List α) : (l.map t).mapM h = l.mapM (fun x => h (t x)) := by
  induction l with
  | nil => rfl
  | cons x l ih => rw [List.map_cons, List.mapM_cons, List.mapM_cons, ih]

/-! ## Mutual information -/

theorem miObj_draw (W : World) (e : Est) (d : Nat → Nat → Nat → ℝ) : Est.miObj (W.withDraw d) e = Est.miObj W e := rfl
theorem cmiObj_draw (W : World) (e : Est) (d : Nat → Nat → Nat → ℝ) : Est.cmiObj (W.withDraw d) e = Est.cmiObj W e := rfl
theorem teObj_draw (W : World) (e : Est) (d : Nat → Nat → Nat → ℝ) : Est.teObj (W.withDraw d) e = Est.teObj W e := rfl
theorem cteObj_draw (W : World) (e : Est) (d : Nat → Nat → Nat → ℝ) : Est.cteObj (W.withDraw d) e = Est.cteObj W e := rfl

theorem result_mi {e : Est} (hk : e.cls.kind = .mi) {r : Except Exc MIObj} (h : e.miObj W = some r) : Est.result W e = (r >>= MIObj.value W) := by
  unfold Est.result
  rw [hk]
  simp only [split_mi_value, h, Option.map_some, Option.getD_some]

theorem result_cmi {e : Est} (hk : e.cls.kind = .cmi) {r : Except Exc MIObj} (h : e.cmiObj W = some r) : Est.result W e = (r >>= MIObj.value W) := by
  unfold Est.result
  rw [hk]
  simp only [split_cmi_value, h, Option.map_some, Option.getD_some]

theorem result_te {e : Est} (hk : e.cls.kind = .te) {r : Except Exc TEObj} (h : e.teObj W = some r) : Est.result W e = (r >>= fun f => f W {}) := by
  unfold Est.result
  rw [hk]
  simp only [split_te_value, h, Option.map_some, Option.getD_some]

theorem result_cte {e : Est} (hk : e.cls.kind = .cte) {r : Except Exc CTEObj} (h : e.cteObj W = some r) : Est.result W e = (r >>= fun f => f W) := by
  unfold Est.result
  rw [hk]
  simp only [split_cte_value, h, Option.map_some, Option.getD_some]

theorem among_eq (kept drawn : List Nat) : among kept drawn = selectRows kept drawn := rfl

theorem asks_mi {x y x' y' : PyData} (hk : Asks W.lower meas [x, y] none .mi) : Asks W.lower meas [x', y'] none .mi := hk
theorem asks_cmi {x y x' y' : PyData} (hk : Asks W.lower meas [x, y] c .cmi) : Asks W.lower meas [x', y'] c .cmi := hk
theorem asks_te {x y x' y' : PyData} (hk : Asks W.lower meas [x, y] none .te) : Asks W.lower meas [x', y'] none .te := hk

theorem normalize_false {b0 : PyVal} {kk : Kind} (hkk : kk = .mi ∨ kk = .cmi) {c : Option PyData} {p : Kw} (hf : f ≠ .ordinal)
    (h : ctorParams b0 { cls := ⟨kk, f⟩, data := data, cond := condOf c, kw := restKw kw } = .ok p)
    (hn : kwOr kw "normalize" (.bool false) = .bool false) :
    f ≠ .discrete → f ≠ .millerMadow → Est.get ⟨⟨kk, f⟩, data, c, p⟩ "normalize" PyVal.toBool = some false := by
  intro h1 h2
  have hm : ("normalize", PyVal.bool false) ∈ optionalKw b0 ⟨kk, f⟩ := by
    rcases hkk with rfl | rfl <;> simp [optionalKw, normalizeKw, h1, h2, hf]
  have := (C81_values b0 _ p h).2 _ hm
  simp only [show restKw kw "normalize" = kw "normalize" by simp [restKw, namedParams]] at this
  show (p "normalize").bind PyVal.toBool = _
  rw [this]
  show PyVal.toBool (kwOr kw "normalize" (.bool false)) = _
  rw [hn]; rfl

theorem toOptInt_int {v : PyVal} {o : Int} (h : v.toOptInt = some (some o)) : v = .int o := by
  cases v <;> simp [PyVal.toOptInt] at h
  rw [h]

/-- a test of the mutual information as a computation that calls the package on resampled data -/
theorem mi_test_eq {x y : PyData} (hk : Asks W.lower meas [x, y] none .mi) (hn : Names W.lower .mi a f) (hf : f ≠ .ordinal)
    (hnorm : kwOr kw "normalize" (.bool false) = .bool false) :
    (∃ e, (∀ d, imEstimator (W.withDraw d) [x, y] a kw none (.str meas) = .error e) ∧
      imTest E W nT mth g [x, y] none (.str meas) a kw = some (.error e)) ∨
    imTest E W nT mth g [x, y] none (.str meas) a kw = none ∨
    ∃ o, kwOr kw "offset" (.int 0) = .int o ∧ x.size = y.size ∧
      imTest E W nT mth g [x, y] none (.str meas) a kw = some (do
        let t ← testArgs E.cfg nT mth
        if KnownMethod t.2 then do
          let vs ← (rounds E t.2 (keptX x.size o).length t.1.toNat g).mapM (fun d =>
            imEstimator (W.withDraw (E.normal d.2)) [x.pick (among (keptX x.size o) d.1), y.pick (keptY y.size o)] a (noOffset kw) none (.str meas))
          let obs ← imEstimator (W.withDraw (E.normal (afterRounds E t.2 (keptX x.size o).length t.1.toNat g))) [x, y] a kw none (.str meas)
          statResult obs vs t.1 t.2
        else .error .valueError) := by
  rcases test_eval (E := E) (nT := nT) (mth := mth) (g := g) (kw := kw) hk hn with ⟨e, h1, h2⟩ | ⟨p, hp, h1, h2⟩
  · exact .inl ⟨e, h1, h2⟩
  obtain ⟨hoff, p', hp', htw⟩ := off_ctor hp
  rw [h2]
  have hT : Est.test E W nT mth g ⟨⟨.mi, f⟩, [x, y], none, p⟩ =
      (Est.miObj W ⟨⟨.mi, f⟩, [x, y], none, p⟩).map (fun r => r >>= MIObj.test E W nT mth g) := rfl
  rw [hT]
  cases hob : Est.miObj W ⟨⟨.mi, f⟩, [x, y], none, p⟩ with
  | none => right; left; rfl
  | some r =>
    have hres : ∀ d, imEstimator (W.withDraw d) [x, y] a kw none (.str meas) = (r >>= MIObj.value (W.withDraw d)) := fun d => by
      rw [h1 d]; exact result_mi rfl ((miObj_draw W _ d).trans hob)
    cases r with
    | error e => exact .inl ⟨e, fun d => hres d, rfl⟩
    | ok ob =>
      right; right
      have hcall : ∀ d x' y' ob', Est.miObj (W.withDraw d) ⟨⟨.mi, f⟩, [x', y'], none, p'⟩ = some (.ok ob') →
          imEstimator (W.withDraw d) [x', y'] a (noOffset kw) none (.str meas) = MIObj.value (W.withDraw d) ob' := by
        intro d x' y' ob' h
        have hc : ctorParams (W.withDraw d).b0 { cls := ⟨.mi, f⟩, data := [x', y'], cond := condOf none, kw := factoryKw none (noOffset kw) .mi } = .ok p' :=
          (ctor_data W.b0 _ [x, y] [x', y'] (condOf none) _ rfl).trans hp'
        rw [call_eval (W := W.withDraw d) (asks_mi hk) hn hc]
        exact result_mi rfl h
      rcases miObj_form (e := ⟨⟨.mi, f⟩, [x, y], none, p⟩) htw hf rfl (normalize_false (.inl rfl) hf hp hnorm) hob with
        ⟨o, u, w, F, ho, hx, hy, hl, rfl, hF⟩ | ⟨o, u, w, F, ho, hx, hy, hl, rfl, hF⟩
      · have hoo : kwOr kw "offset" (.int 0) = .int o := by
          apply toOptInt_int
          have : (p "offset").bind PyVal.toOptInt = some (some o) := ho
          rw [hoff] at this; exact this
        refine ⟨o, hoo, by rw [size_toInts hx, size_toInts hy, hl], ?_⟩
        rw [size_toInts hx, size_toInts hy]
        simp only [Option.map_some, Option.some.injEq]
        show runMITest E W nT mth g E.rng.resampler _ F = _
        rw [run_mi_eq]
        congr 1; funext t; congr 1
        have hdr := dRounds_rounds (E := E) (mm := t.2) (rs := E.rng.resampler.ofMethod t.2) (X := selectRows u (keptX u.length o))
          (N := (keptX u.length o).length) (pickD := fun r => selectRows (selectRows u (keptX u.length o)) r)
          (fun g => by rw [resampler_drawn, selectRows_length]) t.1.toNat g
        rw [hdr.1, hdr.2, mapM_map_except]
        have hobs : ∀ d, imEstimator (W.withDraw d) [x, y] a kw none (.str meas) =
            F (W.withDraw d) [selectRows u (keptX u.length o), selectRows w (keptY w.length o)] := fun d => hres d
        rw [hobs]
        congr 1
        refine mapM_congr_mem fun d hd => ?_
        obtain ⟨hlt, hlen⟩ := mem_rounds hd
        have := hcall (E.normal d.2) (x.pick (among (keptX u.length o) d.1)) (y.pick (keptY w.length o)) _
          (hF (E.normal d.2) _ _ _ _ (by rw [toInts_pick, hx]; rfl) (by rw [toInts_pick, hy]; rfl)
            (by rw [selectRows_length, selectRows_length, among_eq, selectRows_length, hlen, keptX_length, keptY_length, hl]))
        rw [this, among_eq]
        dsimp only
        rw [← selectRows_selectRows _ _ _ hlt]
        rfl
      · have hoo : kwOr kw "offset" (.int 0) = .int o := by
          apply toOptInt_int
          have : (p "offset").bind PyVal.toOptInt = some (some o) := ho
          rw [hoff] at this; exact this
        refine ⟨o, hoo, by rw [size_toKVar hx, size_toKVar hy, hl], ?_⟩
        rw [size_toKVar hx, size_toKVar hy]
        simp only [Option.map_some, Option.some.injEq]
        show runMITest E W nT mth g E.rng.arrResampler _ F = _
        rw [run_mi_eq]
        congr 1; funext t; congr 1
        have hdr := dRounds_rounds (E := E) (mm := t.2) (rs := E.rng.arrResampler.ofMethod t.2) (X := u.sel (keptX u.len o))
          (N := (keptX u.len o).length) (pickD := fun r => (u.sel (keptX u.len o)).sel r)
          (fun g => by rw [arrResampler_drawn, KVar.len_sel]) t.1.toNat g
        rw [hdr.1, hdr.2, mapM_map_except]
        have hobs : ∀ d, imEstimator (W.withDraw d) [x, y] a kw none (.str meas) =
            F (W.withDraw d) [u.sel (keptX u.len o), w.sel (keptY w.len o)] := fun d => hres d
        rw [hobs]
        congr 1
        refine mapM_congr_mem fun d hd => ?_
        obtain ⟨hlt, hlen⟩ := mem_rounds hd
        have hin : ∀ i ∈ among (keptX u.len o) d.1, i < x.size := by
          intro i hi
          rw [among_eq] at hi
          obtain ⟨j, hj, rfl⟩ := List.mem_map.1 hi
          have hj' := hlt j hj
          rw [size_toKVar hx, List.getD_eq_getElem?_getD, List.getElem?_eq_getElem hj']
          exact keptX_lt _ (List.getElem_mem hj')
        have := hcall (E.normal d.2) (x.pick (among (keptX u.len o) d.1)) (y.pick (keptY w.len o)) _
          (hF (E.normal d.2) _ _ _ _ (by rw [toKVar_pick _ _ hin, hx]; rfl)
            (by rw [toKVar_pick _ _ (by rw [size_toKVar hy]; exact keptY_lt), hy]; rfl)
            (by rw [KVar.len_sel, KVar.len_sel, among_eq, selectRows_length, hlen, keptX_length, keptY_length, hl]))
        rw [this, among_eq]
        dsimp only
        rw [← KVar.sel_sel _ _ _ hlt]
        rfl

/-! ## Conditional mutual information -/

theorem cmi_test_eq {x y z : PyData} (hk : Asks W.lower meas [x, y] (some z) .cmi) (hn : Names W.lower .cmi a f) (hf : f ≠ .ordinal)
    (hnorm : kwOr kw "normalize" (.bool false) = .bool false) :
    (∃ e, (∀ d, imEstimator (W.withDraw d) [x, y] a kw (some z) (.str meas) = .error e) ∧
      imTest E W nT mth g [x, y] (some z) (.str meas) a kw = some (.error e)) ∨
    imTest E W nT mth g [x, y] (some z) (.str meas) a kw = none ∨
      imTest E W nT mth g [x, y] (some z) (.str meas) a kw = some (do
        let t ← testArgs E.cfg nT mth
        if KnownMethod t.2 then do
          let vs ← (rounds E t.2 x.size t.1.toNat g).mapM (fun d =>
            imEstimator (W.withDraw (E.normal d.2)) [x.pick d.1, y] a kw (some z) (.str meas))
          let obs ← imEstimator (W.withDraw (E.normal (afterRounds E t.2 x.size t.1.toNat g))) [x, y] a kw (some z) (.str meas)
          statResult obs vs t.1 t.2
        else .error .valueError) := by
  rcases test_eval (E := E) (nT := nT) (mth := mth) (g := g) (kw := kw) hk hn with ⟨e, h1, h2⟩ | ⟨p, hp, h1, h2⟩
  · exact .inl ⟨e, h1, h2⟩
  rw [h2]
  have hT : Est.test E W nT mth g ⟨⟨.cmi, f⟩, [x, y], some z, p⟩ =
      (Est.cmiObj W ⟨⟨.cmi, f⟩, [x, y], some z, p⟩).map (fun r => r >>= MIObj.test E W nT mth g) := rfl
  rw [hT]
  cases hob : Est.cmiObj W ⟨⟨.cmi, f⟩, [x, y], some z, p⟩ with
  | none => right; left; rfl
  | some r =>
    have hres : ∀ d, imEstimator (W.withDraw d) [x, y] a kw (some z) (.str meas) = (r >>= MIObj.value (W.withDraw d)) := fun d => by
      rw [h1 d]; exact result_cmi rfl ((cmiObj_draw W _ d).trans hob)
    cases r with
    | error e => exact .inl ⟨e, fun d => hres d, rfl⟩
    | ok ob =>
      right; right
      have hcall : ∀ d x' ob', Est.cmiObj (W.withDraw d) ⟨⟨.cmi, f⟩, [x', y], some z, p⟩ = some (.ok ob') →
          imEstimator (W.withDraw d) [x', y] a kw (some z) (.str meas) = MIObj.value (W.withDraw d) ob' := by
        intro d x' ob' h
        have hc : ctorParams (W.withDraw d).b0 { cls := ⟨.cmi, f⟩, data := [x', y], cond := condOf (some z), kw := factoryKw (some z) kw .cmi } = .ok p :=
          (ctor_data W.b0 _ [x, y] [x', y] (condOf (some z)) _ rfl).trans hp
        rw [call_eval (W := W.withDraw d) (asks_cmi hk) hn hc]
        exact result_cmi rfl h
      rcases cmiObj_form (e := ⟨⟨.cmi, f⟩, [x, y], some z, p⟩) hf rfl (normalize_false (.inr rfl) hf hp hnorm) hob with
        ⟨u, w, F, hx, hy, rfl, hF⟩ | ⟨u, w, F, hx, hy, rfl, hF⟩
      · rw [size_toInts hx]
        simp only [Option.map_some, Option.some.injEq]
        show runMITest E W nT mth g E.rng.resampler _ F = _
        rw [run_mi_eq]
        congr 1; funext t; congr 1
        have hdr := dRounds_rounds (E := E) (mm := t.2) (rs := E.rng.resampler.ofMethod t.2) (X := u)
          (N := u.length) (pickD := fun r => selectRows u r) (fun g => by rw [resampler_drawn]) t.1.toNat g
        rw [hdr.1, hdr.2, mapM_map_except]
        have hobs : ∀ d, imEstimator (W.withDraw d) [x, y] a kw (some z) (.str meas) = F (W.withDraw d) [u, w] := fun d => hres d
        rw [hobs]
        congr 1
        refine mapM_congr_mem fun d hd => ?_
        obtain ⟨hlt, hlen⟩ := mem_rounds hd
        have := hcall (E.normal d.2) (x.pick d.1) _
          (hF (E.normal d.2) _ _ (by rw [toInts_pick, hx]; rfl) (by rw [selectRows_length, hlen]))
        rw [this]
        rfl
      · rw [size_toKVar hx]
        simp only [Option.map_some, Option.some.injEq]
        show runMITest E W nT mth g E.rng.arrResampler _ F = _
        rw [run_mi_eq]
        congr 1; funext t; congr 1
        have hdr := dRounds_rounds (E := E) (mm := t.2) (rs := E.rng.arrResampler.ofMethod t.2) (X := u)
          (N := u.len) (pickD := fun r => u.sel r) (fun g => by rw [arrResampler_drawn]) t.1.toNat g
        rw [hdr.1, hdr.2, mapM_map_except]
        have hobs : ∀ d, imEstimator (W.withDraw d) [x, y] a kw (some z) (.str meas) = F (W.withDraw d) [u, w] := fun d => hres d
        rw [hobs]
        congr 1
        refine mapM_congr_mem fun d hd => ?_
        obtain ⟨hlt, hlen⟩ := mem_rounds hd
        have := hcall (E.normal d.2) (x.pick d.1) _
          (hF (E.normal d.2) _ _ (by rw [toKVar_pick _ _ (by rw [size_toKVar hx]; exact hlt), hx]; rfl) (by rw [KVar.len_sel, hlen]))
        rw [this]
        rfl

/-! ## Ordinal approach -/

theorem ord_miObj {x y : PyData} {kk : Kind} {p : Kw} {ob : MIObj} (h : Est.miObj W ⟨⟨kk, .ordinal⟩, [x, y], c, p⟩ = some (.ok ob)) :
    ∃ u w v, ob = .series [u, w] (fun _ _ => v) := by
  unfold Est.miObj at h
  obtain ⟨b, -, h⟩ := Option.bind_eq_some_iff.1 h
  obtain ⟨o', -, h⟩ := Option.bind_eq_some_iff.1 h
  obtain ⟨xs, hxs, h⟩ := Option.bind_eq_some_iff.1 h
  obtain ⟨u, w, hu, hw, rfl⟩ := mapM_pair hxs
  obtain ⟨q, -, h⟩ := Option.bind_eq_some_iff.1 h
  obtain ⟨d, hd, h⟩ := chk_bind (Option.some.inj h)
  obtain ⟨o, -, -, rfl⟩ := e2t_miInit_pair hd
  obtain ⟨s, -, h⟩ := chk_bind h
  cases h
  exact ⟨_, _, _, rfl⟩

theorem ord_cmiObj {x y : PyData} {kk : Kind} {p : Kw} {ob : MIObj} (h : Est.cmiObj W ⟨⟨kk, .ordinal⟩, [x, y], c, p⟩ = some (.ok ob)) :
    ∃ u w v, ob = .series [u, w] (fun _ _ => v) := by
  unfold Est.cmiObj at h
  obtain ⟨b, -, h⟩ := Option.bind_eq_some_iff.1 h
  obtain ⟨o', -, h⟩ := Option.bind_eq_some_iff.1 h
  obtain ⟨zd, -, h⟩ := Option.bind_eq_some_iff.1 h
  obtain ⟨xs, hxs, h⟩ := Option.bind_eq_some_iff.1 h
  obtain ⟨u, w, hu, hw, rfl⟩ := mapM_pair hxs
  obtain ⟨z, -, h⟩ := Option.bind_eq_some_iff.1 h
  obtain ⟨q, -, h⟩ := Option.bind_eq_some_iff.1 h
  obtain ⟨d, hd, h⟩ := chk_bind (Option.some.inj h)
  obtain ⟨rfl, -⟩ := cmiInit_pair hd
  obtain ⟨s, -, h⟩ := chk_bind h
  cases h
  exact ⟨_, _, _, rfl⟩

theorem run_const {D : Type} (R : Resampler D G) (u w : D) (v : Except Exc ℝ) {r : StatRes}
    (h : runMITest E W nT mth g R [u, w] (fun _ _ => v) = .ok r) :
    v = .ok r.observed ∧ ∀ t ∈ r.testValues, t = r.observed := by
  rw [run_mi_eq] at h
  obtain ⟨t, -, h⟩ := chk_bind h
  split_ifs at h
  obtain ⟨vs, hvs, h⟩ := chk_bind h
  obtain ⟨obs, hob, h⟩ := chk_bind h
  obtain ⟨-, -, -, e1, e2, -⟩ := statResult_ok h
  refine ⟨by rw [e2]; exact hob, fun t ht => ?_⟩
  rw [e1] at ht
  obtain ⟨d, -, hd⟩ := mapM_mem hvs t ht
  rw [hob] at hd
  cases hd
  exact e2.symm

/-! ## Transfer entropy -/

theorem te_test_eq {x y : PyData} (hk : Asks W.lower meas [x, y] none .te) (hn : Names W.lower .te a f) :
    (∃ e, (∀ d, imEstimator (W.withDraw d) [x, y] a kw none (.str meas) = .error e) ∧
      imTest E W nT mth g [x, y] none (.str meas) a kw = some (.error e)) ∨
    imTest E W nT mth g [x, y] none (.str meas) a kw = none ∨
    ∃ (β α : Type) (conv : PyData → Option (List β)) (prep : (Nat → Nat → Nat → ℝ) → Nat → Nat → List β → Except Exc (List α))
      (Φ : TESlices α → Except Exc ℝ) (p : Kw) (u o : Option PyArg) (q : TEParams) (xs ys : List β),
      ctorParams W.b0 { cls := ⟨.te, f⟩, data := [x, y], cond := condOf none, kw := factoryKw none kw .te } = .ok p ∧
      (p "prop_time").bind PyVal.toOptArg = some u ∧ (p "offset").bind PyVal.toOptArg = some o ∧
      (p "src_hist_len").bind PyVal.toArg = some q.srcHist ∧ (p "dest_hist_len").bind PyVal.toArg = some q.destHist ∧
      (p "step_size").bind PyVal.toArg = some q.step ∧
      conv x = some xs ∧ conv y = some ys ∧
      (∀ d x' y' xs' ys', conv x' = some xs' → conv y' = some ys' → imEstimator (W.withDraw d) [x', y'] a kw none (.str meas) =
        viaTables (prep d) Φ u o q.srcHist q.destHist q.step xs' ys' List.range) ∧
      imTest E W nT mth g [x, y] none (.str meas) a kw = some (do
        let t ← testArgs E.cfg nT mth
        match methodFlags t.2 with
        | none => .error .valueError
        | some _ => do
          let vs ← (states E t.1.toNat g).mapM (fun g' =>
            viaTables (prep (E.normal g')) Φ u o q.srcHist q.destHist q.step xs ys (fun n => (drawn E t.2 n g').1))
          let obs ← imEstimator (W.withDraw (E.normal (E.next^[t.1.toNat] g))) [x, y] a kw none (.str meas)
          statResult obs vs t.1 t.2) := by
  rcases test_eval (E := E) (nT := nT) (mth := mth) (g := g) (kw := kw) hk hn with ⟨e, h1, h2⟩ | ⟨p, hp, h1, h2⟩
  · exact .inl ⟨e, h1, h2⟩
  rw [h2]
  have hT : Est.test E W nT mth g ⟨⟨.te, f⟩, [x, y], none, p⟩ =
      (Est.teObj W ⟨⟨.te, f⟩, [x, y], none, p⟩).map (fun r => r >>= TEObj.test E W nT mth g) := rfl
  rw [hT]
  cases hob : Est.teObj W ⟨⟨.te, f⟩, [x, y], none, p⟩ with
  | none => right; left; rfl
  | some r =>
    have hres : ∀ d, imEstimator (W.withDraw d) [x, y] a kw none (.str meas) = (r >>= fun f => f (W.withDraw d) {}) := fun d => by
      rw [h1 d]; exact result_te rfl ((teObj_draw W _ d).trans hob)
    cases r with
    | error e => exact .inl ⟨e, fun d => hres d, rfl⟩
    | ok ob =>
      right; right
      obtain ⟨β, α, hα, conv, prep, Φ, u, o, q, xs, ys, hu, ho, hq, hx, hy, hL, hF, hpin⟩ := teObj_form (e := ⟨⟨.te, f⟩, [x, y], none, p⟩) rfl hob
      unfold Est.te at hq
      obtain ⟨l, hl, hq⟩ := Option.bind_eq_some_iff.1 hq
      obtain ⟨kk, hkk, hq⟩ := Option.bind_eq_some_iff.1 hq
      obtain ⟨st, hst, hq⟩ := Option.bind_eq_some_iff.1 hq
      cases hq
      have pin : ∀ d x' y' xs' ys', conv x' = some xs' → conv y' = some ys' → imEstimator (W.withDraw d) [x', y'] a kw none (.str meas) =
          viaTables (prep d) Φ u o l kk st xs' ys' List.range := by
        intro d x' y' xs' ys' hx' hy'
        have hc : ctorParams (W.withDraw d).b0 { cls := ⟨.te, f⟩, data := [x', y'], cond := condOf none, kw := factoryKw none kw .te } = .ok p :=
          (ctor_data W.b0 _ [x, y] [x', y'] (condOf none) _ rfl).trans hp
        rw [call_eval (W := W.withDraw d) (asks_te hk) hn hc]
        have := hpin d x' y' xs' ys' hx' hy'
        unfold Est.result
        simp only [split_te_value, this, Option.getD_some]
        exact viaObs_select hL d Φ u o l kk st xs' ys' lawful_none
      refine ⟨β, α, conv, prep, Φ, p, u, o, { srcHist := l, destHist := kk, step := st }, xs, ys, hp, hu, ho, hl, hkk, hst, hx, hy, pin, ?_⟩
      simp only [Option.map_some, Option.some.injEq]
      show TEObj.test E W nT mth g ob = _
      unfold TEObj.test
      rw [run_te_eq (F := fun W fl g => ob W (teRandom E.rng fl g))]
      congr 1; funext t
      cases hfl : methodFlags t.2 with
      | none => rfl
      | some fl =>
        have e1 : ∀ g', viaObs (prep (E.normal g')) Φ u o l kk st xs ys (teRandom E.rng fl g') =
            viaTables (prep (E.normal g')) Φ u o l kk st xs ys (fun n => (drawn E t.2 n g').1) := fun g' => by
          rw [viaObs_select hL _ Φ u o l kk st xs ys (teRandom_lawful E.rng hfl g')]
          congr 1
          funext n
          exact srcSel_teRandom E hfl g' n
        have e2 : ∀ g', viaObs (prep (E.normal g')) Φ u o l kk st xs ys (teRandom E.rng {} g') =
            viaTables (prep (E.normal g')) Φ u o l kk st xs ys List.range := fun g' =>
          viaObs_select hL _ Φ u o l kk st xs ys lawful_none
        simp only [hF, pin _ x y xs ys hx hy, e1, e2]

/-! ## Conditional transfer entropy -/

theorem cte_test_eq {z : PyData} (hk : Asks W.lower meas data (some z) .cte) (hn : Names W.lower .cte a f) :
    (∃ e, (∀ d, imEstimator (W.withDraw d) data a kw (some z) (.str meas) = .error e) ∧
      imTest E W nT mth g data (some z) (.str meas) a kw = some (.error e)) ∨
    imTest E W nT mth g data (some z) (.str meas) a kw = none ∨
      imTest E W nT mth g data (some z) (.str meas) a kw = some (do
        let t ← testArgs E.cfg nT mth
        match methodFlags t.2 with
        | none => .error .valueError
        | some _ => do
          let vs ← (states E t.1.toNat g).mapM (fun g' => imEstimator (W.withDraw (E.normal g')) data a kw (some z) (.str meas))
          let obs ← imEstimator (W.withDraw (E.normal (E.next^[t.1.toNat] g))) data a kw (some z) (.str meas)
          statResult obs vs t.1 t.2) := by
  rcases test_eval (E := E) (nT := nT) (mth := mth) (g := g) (kw := kw) hk hn with ⟨e, h1, h2⟩ | ⟨p, hp, h1, h2⟩
  · exact .inl ⟨e, h1, h2⟩
  rw [h2]
  have hT : Est.test E W nT mth g ⟨⟨.cte, f⟩, data, some z, p⟩ =
      (Est.cteObj W ⟨⟨.cte, f⟩, data, some z, p⟩).map (fun r => r >>= CTEObj.test E W nT mth g) := rfl
  rw [hT]
  cases hob : Est.cteObj W ⟨⟨.cte, f⟩, data, some z, p⟩ with
  | none => right; left; rfl
  | some r =>
    have hres : ∀ d, imEstimator (W.withDraw d) data a kw (some z) (.str meas) = (r >>= fun f => f (W.withDraw d)) := fun d => by
      rw [h1 d]; exact result_cte rfl ((cteObj_draw W _ d).trans hob)
    cases r with
    | error e => exact .inl ⟨e, fun d => hres d, rfl⟩
    | ok ob =>
      right; right
      simp only [Option.map_some, Option.some.injEq]
      show CTEObj.test E W nT mth g ob = _
      unfold CTEObj.test
      rw [run_te_eq (F := fun W _ _ => ob W)]
      have hres' : ∀ d, imEstimator (W.withDraw d) data a kw (some z) (.str meas) = ob (W.withDraw d) := fun d => hres d
      simp only [hres']
      congr 1

end

end Verif
