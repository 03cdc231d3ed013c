import Verif.Props.Dispatch2
import Verif.Lemmas.EndToEndBase
import Verif.Spec.EndToEndBase

/-!
# C86: the base of the public functions
-/

namespace Verif

variable {W : World}

theorem withBase_eq (kw : Kw) (v : PyVal) : withBase kw v = kw.set "base" v := rfl

theorem base_optional (b0 : PyVal) (c : EstClass) : ("base", b0) ∈ optionalKw b0 c := by
  cases c with
  | mk k f => cases k <;> cases f <;> simp [optionalKw, commonKw]

theorem isNumber_base {v : PyVal} {x : ℝ} (h : IsNumber v x) : v.toBase = some (.num x) := by
  rcases h with rfl | ⟨n, rfl, rfl⟩ <;> rfl

/-- the two estimators built by calls in nats and in base `v` -/
theorem twin_build (cls : EstClass) (data : List PyData) (cond : CondKw PyData) (kw : Kw) (v : PyVal) (b : Base)
    (hv : v.toBase = some b) :
    (∃ e, buildEst W { cls := cls, data := data, cond := cond, kw := withBase kw (.str "e") } = .error e ∧
      buildEst W { cls := cls, data := data, cond := cond, kw := withBase kw v } = .error e) ∨
    ∃ e p', buildEst W { cls := cls, data := data, cond := cond, kw := withBase kw (.str "e") } = .ok e ∧
      buildEst W { cls := cls, data := data, cond := cond, kw := withBase kw v } = .ok { e with par := p' } ∧
      BaseTwin e p' b ∧ e.cls = cls ∧
      (∀ k d, k ≠ "base" → (k, d) ∈ optionalKw W.b0 cls → e.par k = some ((kw k).getD d)) := by
  simp only [buildEst, bind, withBase_eq]
  have ht := twin_ctor (key := "base") (v := .str "e") (w := v) W.b0 cls data cond kw (by decide)
  rcases ht with ⟨e, e1, e2⟩ | ⟨p, p', e1, e2, hp⟩
  · exact .inl ⟨e, by rw [e1]; rfl, by rw [e2]; rfl⟩
  · refine .inr ⟨⟨cls, data, cond.toOption, p⟩, p', by rw [e1]; rfl, by rw [e2]; rfl, ?_, rfl, ?_⟩
    · have h1 := (C81_values W.b0 _ p e1).2 ("base", W.b0) (base_optional _ _)
      have h2 := (C81_values W.b0 _ p' e2).2 ("base", W.b0) (base_optional _ _)
      simp only [kw_set_self, Option.getD_some] at h1 h2
      refine ⟨?_, ?_, fun k hk => (hp.1 k hk).symm⟩
      · simp only [Est.get, h1]; simp [PyVal.toBase]
      · rw [h2]; exact hv
    · intro k d hk ho
      have := (C81_values W.b0 _ p e1).2 (k, d) ho
      simpa only [kw_set_ne kw _ hk] using this

/-- the results of two estimators one of which is the other divided by a number -/
theorem result_div {e : Est} {p' : Kw} {r : ℝ}
    (h1 : Est.entropy W { e with par := p' } = (Est.entropy W e).map (Except.map (fun v => v / r)) ∨ e.cls.kind ≠ .h)
    (h2 : Est.mi W { e with par := p' } = (Est.mi W e).map (Except.map (fun v => v / r)) ∨ e.cls.kind ≠ .mi)
    (h3 : Est.cmi W { e with par := p' } = (Est.cmi W e).map (Except.map (fun v => v / r)) ∨ e.cls.kind ≠ .cmi)
    (h4 : Est.teVal W { e with par := p' } = (Est.teVal W e).map (Except.map (fun v => v / r)) ∨ e.cls.kind ≠ .te)
    (h5 : Est.cteVal W { e with par := p' } = (Est.cteVal W e).map (Except.map (fun v => v / r)) ∨ e.cls.kind ≠ .cte)
    (hm : ∀ other, Est.result { W with other := other } e = Est.result W e) :
    Est.result W { e with par := p' } = (Est.result W e).map (fun v => v / r) := by
  have key : ∀ (o : Option (Except Exc ℝ)) (o' : Option (Except Exc ℝ)) (d : Except Exc ℝ),
      (∀ other : Est → Except Exc ℝ, o.getD (other e) = o.getD (W.other e)) →
      o' = o.map (Except.map (fun v => v / r)) → o'.getD d = (o.getD (W.other e)).map (fun v => v / r) := by
    intro o o' d hm ho
    cases o with
    | some x => rw [ho]; rfl
    | none =>
      have a := hm fun _ => .ok 0
      have b := hm fun _ => .ok 1
      simp only [Option.getD_none] at a b
      rw [← a] at b
      exact absurd (Except.ok.inj b) (by norm_num)
  unfold Est.result at hm ⊢
  obtain ⟨⟨kind, fam⟩, data, cond, par⟩ := e
  cases kind
  · exact key _ _ _ hm (h1.resolve_right (by simp))
  · exact key _ _ _ hm (h2.resolve_right (by simp))
  · exact key _ _ _ hm (h3.resolve_right (by simp))
  · exact key _ _ _ hm (h4.resolve_right (by simp))
  · exact key _ _ _ hm (h5.resolve_right (by simp))

/-- the common part: a public function in two bases -/
theorem run_div (fn : PubFn) (data : List PyData) (a : PyName) (cond : CondKw PyData) (kw : Kw) (v : PyVal) (b : Base)
    (hv : v.toBase = some b) (r : ℝ) (hm : fn.Modelled W data a cond (withBase kw (.str "e")))
    (hr : ∀ f, Names W.lower (fn.kind cond) a f → ∀ e p', BaseTwin e p' b → e.cls = ⟨fn.kind cond, f⟩ →
      (∀ k d, k ≠ "base" → (k, d) ∈ optionalKw W.b0 e.cls → e.par k = some ((kw k).getD d)) →
      (∀ other, Est.result { W with other := other } e = Est.result W e) →
      Est.result W { e with par := p' } = (Est.result W e).map (fun v => v / r)) :
    fn.run W data a cond (withBase kw v) = (fn.run W data a cond (withBase kw (.str "e"))).map (fun x => x / r) := by
  by_cases h : (∀ f, ¬ Names W.lower (fn.kind cond) a f) ∨ ¬ fn.Takes data cond
  · rw [C82_value_error fn data a cond _ h, C82_value_error fn data a cond _ h]; rfl
  push Not at h
  obtain ⟨⟨f, hf⟩, ht⟩ := h
  have hm' : ∀ other, _ := fun other => hm other
  simp only [pubFn_ok hf ht] at hm' ⊢
  have hmo : ∀ other : Est → Except Exc ℝ, fn.run { W with other := other } data a cond (withBase kw (.str "e")) =
      (buildEst W { cls := ⟨fn.kind cond, f⟩, data := data, cond := cond, kw := withBase kw (.str "e") }) >>=
        Est.result { W with other := other } := fun other => pubFn_ok (W := { W with other := other }) hf ht _
  simp only [hmo] at hm'
  rcases twin_build (W := W) ⟨fn.kind cond, f⟩ data cond kw v b hv with ⟨e, e1, e2⟩ | ⟨e, p', e1, e2, hp, hc, ho⟩
  · rw [e1, e2]; rfl
  · simp only [e1, e2, bind, Except.bind] at hm' ⊢
    exact hr f hf e p' hp hc (by rw [hc]; exact ho) hm'

/-- **C86** Every public function, every approach but Tsallis, every data and every other keyword argument: in base `x` the call fails exactly as
it does in nats, or returns the value in nats divided by `ln x`.  (Plain mutual information: bases above 1; below 1 the two-variable estimate is
cut off at zero, C11.) -/
theorem C86_base_change (fn : PubFn) (data : List PyData) (a : PyName) (cond : CondKw PyData) (kw : Kw) (v : PyVal) (x : ℝ)
    (hv : IsNumber v x) (h0 : 0 < x) (h1 : x ≠ 1) (hmi : fn.kind cond = .mi → 1 < x)
    (hT : ¬ Names W.lower (fn.kind cond) a .tsallis) (hm : fn.Modelled W data a cond (withBase kw (.str "e"))) :
    fn.run W data a cond (withBase kw v) = (fn.run W data a cond (withBase kw (.str "e"))).map (fun r => r / Real.log x) := by
  have hb : Base.Valid (.num x) := ⟨h0, h1⟩
  refine run_div fn data a cond kw v (.num x) (isNumber_base hv) (Real.log x) hm fun f hf e p' hp hc _ hmo => ?_
  have hft : e.cls.fam ≠ .tsallis := by rw [hc]; rintro rfl; exact hT hf
  refine result_div (.inl (twin_entropy hp hb hft)) ?_ (.inl (twin_cmi hp hb hft)) (.inl (twin_te hp hb hft)) (.inl (twin_cte hp hb hft)) hmo
  by_cases hk : e.cls.kind = .mi
  · exact .inl (twin_mi hp (hmi (by rw [hc] at hk; exact hk)) hft)
  · exact .inr hk

/-- **C86** Two bases: the same failure, or values that convert by the ratio of the logarithms. -/
theorem C86_two_bases (fn : PubFn) (data : List PyData) (a : PyName) (cond : CondKw PyData) (kw : Kw) (v w : PyVal) (x y : ℝ)
    (hv : IsNumber v x) (hw : IsNumber w y) (hx : 1 < x) (hy : 1 < y)
    (hT : ¬ Names W.lower (fn.kind cond) a .tsallis) (hm : fn.Modelled W data a cond (withBase kw (.str "e"))) :
    fn.run W data a cond (withBase kw w) =
      (fn.run W data a cond (withBase kw v)).map (fun r => r * (Real.log x / Real.log y)) := by
  rw [C86_base_change fn data a cond kw v x hv (by linarith) (by linarith) (fun _ => hx) hT hm,
    C86_base_change fn data a cond kw w y hw (by linarith) (by linarith) (fun _ => hy) hT hm]
  have := (Real.log_pos hx).ne'
  have := (Real.log_pos hy).ne'
  cases fn.run W data a cond (withBase kw (.str "e")) with
  | error e => rfl
  | ok r =>
    simp only [Except.map]
    congr 1
    field_simp

theorem tsallis_q_optional (b0 : PyVal) (k : Kind) : ("q", PyVal.none) ∈ optionalKw b0 ⟨k, .tsallis⟩ := by
  cases k <;> simp [optionalKw, ownKw]

/-- **C86** Tsallis measures of order one rescale like all the others … -/
theorem C86_tsallis_one (fn : PubFn) (data : List PyData) (a : PyName) (cond : CondKw PyData) (kw : Kw) (v : PyVal) (x : ℝ)
    (hv : IsNumber v x) (h0 : 0 < x) (h1 : x ≠ 1) (hT : Names W.lower (fn.kind cond) a .tsallis)
    (hq : ∃ q, kw "q" = some q ∧ IsNumber q 1) (hm : fn.Modelled W data a cond (withBase kw (.str "e"))) :
    fn.run W data a cond (withBase kw v) = (fn.run W data a cond (withBase kw (.str "e"))).map (fun r => r / Real.log x) := by
  have hb : Base.Valid (.num x) := ⟨h0, h1⟩
  refine run_div fn data a cond kw v (.num x) (isNumber_base hv) (Real.log x) hm fun f hf e p' hp hc ho hmo => ?_
  obtain rfl := Names.unique hf hT
  obtain ⟨q, hq, hq1⟩ := hq
  have hpar := ho "q" .none (by decide) (by rw [hc]; exact tsallis_q_optional _ _)
  rw [hq, Option.getD_some] at hpar
  have ht : TsallisRel e (.num x) (Real.log x) := by
    intro o hoq args k
    refine C09_tsallis_one args k o ?_ (.num x) hb
    simp only [Est.get, hpar, Option.bind_some] at hoq
    rcases hq1 with rfl | ⟨n, rfl, hn⟩
    · obtain rfl : PyArg.num 1 = o := by simpa [PyVal.toArg] using hoq
      simp [PyArg.posNumber]
    · obtain rfl : PyArg.int n = o := by simpa [PyVal.toArg] using hoq
      obtain rfl : n = 1 := by exact_mod_cast hn.symm
      simp [PyArg.posNumber]
  have h := twin_tsallis (W := W) hp (by rw [hc]) ht
  exact result_div (.inl h.1) (.inl h.2.1) (.inl h.2.2.1) (.inl h.2.2.2.1) (.inl h.2.2.2.2) hmo

/-- **C86** … and of every other order they do not depend on the base at all. -/
theorem C86_tsallis_ignores_base (fn : PubFn) (data : List PyData) (a : PyName) (cond : CondKw PyData) (kw : Kw) (v : PyVal) (x : ℝ)
    (hv : IsNumber v x) (hT : Names W.lower (fn.kind cond) a .tsallis)
    (hq : ∀ q, kw "q" = some q → ¬ IsNumber q 1) (hm : fn.Modelled W data a cond (withBase kw (.str "e"))) :
    fn.run W data a cond (withBase kw v) = fn.run W data a cond (withBase kw (.str "e")) := by
  have key := run_div fn data a cond kw v (.num x) (isNumber_base hv) 1 hm fun f hf e p' hp hc ho hmo => by
    obtain rfl := Names.unique hf hT
    have hpar := ho "q" .none (by decide) (by rw [hc]; exact tsallis_q_optional _ _)
    have ht : TsallisRel e (.num x) 1 := by
      intro o hoq args k
      have hne : o.posNumber ≠ some 1 := by
        simp only [Est.get, hpar, Option.bind_some] at hoq
        intro h1
        cases hk : kw "q" with
        | none =>
          rw [hk] at hoq
          obtain rfl : PyArg.other = o := by simpa [PyVal.toArg] using hoq
          simp [PyArg.posNumber] at h1
        | some q =>
          rw [hk, Option.getD_some] at hoq
          refine hq q hk ?_
          cases q with
          | int n =>
            obtain rfl : PyArg.int n = o := by simpa [PyVal.toArg] using hoq
            simp only [PyArg.posNumber] at h1
            split_ifs at h1
            exact .inr ⟨n, rfl, (Option.some.inj h1).symm⟩
          | num z =>
            obtain rfl : PyArg.num z = o := by simpa [PyVal.toArg] using hoq
            simp only [PyArg.posNumber] at h1
            split_ifs at h1
            exact .inl (by rw [Option.some.inj h1])
          | none =>
            obtain rfl : PyArg.other = o := by simpa [PyVal.toArg] using hoq
            simp [PyArg.posNumber] at h1
          | str s =>
            obtain rfl : PyArg.other = o := by simpa [PyVal.toArg] using hoq
            simp [PyArg.posNumber] at h1
          | bool _ => simp [PyVal.toArg] at hoq
          | inf => simp [PyVal.toArg] at hoq
          | arr => simp [PyVal.toArg] at hoq
      rw [C09_tsallis_ignores_base args k o hne (.num x) .e]
      cases expEntropy tsallisVal args k o .e <;> simp [Except.map]
    have h := twin_tsallis (W := W) hp (by rw [hc]) ht
    exact result_div (.inl h.1) (.inl h.2.1) (.inl h.2.2.1) (.inl h.2.2.2.1) (.inl h.2.2.2.2) hmo
  rw [key]
  cases fn.run W data a cond (withBase kw (.str "e")) <;> simp [Except.map]

end Verif
