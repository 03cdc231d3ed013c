import Verif.Lemmas.Numbers
import Verif.Props.EndToEndBase
import Verif.Props.EndToEndEffective
import Verif.Props.EndToEndDiv

/-!
# C89: integers and floats

Concrete calls that meet the hypotheses are in `Props/NumbersEx.lean`.
-/

namespace Verif

open Spec

variable {W : World} {data : List PyData} {a : PyName} {cond : CondKw PyData} {kw : Kw} {f : Fam}

theorem num_isVal (c : CondKw PyData) : c.asFloat.isVal = c.isVal := by cases c <;> rfl
theorem num_toOption (c : CondKw PyData) : c.asFloat.toOption = c.toOption.map PyData.asFloat := by cases c <;> rfl
theorem num_kind (fn : PubFn) (c : CondKw PyData) : fn.kind c.asFloat = fn.kind c := by cases fn <;> cases c <;> rfl
theorem num_takes (fn : PubFn) (data : List PyData) (c : CondKw PyData) : fn.Takes (data.map PyData.asFloat) c.asFloat ↔ fn.Takes data c := by
  cases fn <;> simp [PubFn.Takes, num_isVal]

theorem num_ctor (b0 : PyVal) (cls : EstClass) (data : List PyData) (c : CondKw PyData) (kw : Kw) :
    ctorParams b0 { cls := cls, data := data.map PyData.asFloat, cond := c.asFloat, kw := kw } = ctorParams b0 { cls := cls, data := data, cond := c, kw := kw } := by
  unfold ctorParams callKw
  simp only [List.length_map, num_isVal]
  cases c <;> rfl

theorem num_build (cls : EstClass) (data : List PyData) (c : CondKw PyData) (kw : Kw) :
    buildEst W { cls := cls, data := data.map PyData.asFloat, cond := c.asFloat, kw := kw } =
      (buildEst W { cls := cls, data := data, cond := c, kw := kw }).map Est.asFloat := by
  simp only [buildEst, num_ctor, bind, Except.bind, num_toOption]
  cases ctorParams W.b0 { cls := cls, data := data, cond := c, kw := kw } <;> rfl

theorem build_cls {cls : EstClass} {data : List PyData} {c : CondKw PyData} {kw : Kw} {e : Est}
    (h : buildEst W { cls := cls, data := data, cond := c, kw := kw } = .ok e) : e.cls = cls := by
  simp only [buildEst, bind, Except.bind] at h
  cases hp : ctorParams W.b0 { cls := cls, data := data, cond := c, kw := kw } with
  | error x => rw [hp] at h; cases h
  | ok p => rw [hp] at h; cases h; rfl

/-- an estimator in the modelled fragment has a result in the model -/
theorem modelled_some {e : Est} (hm : ∀ other, Est.result { W with other := other } e = Est.result W e) (o : Est → Option (Except Exc ℝ))
    (ho : ∀ other, Est.result { W with other := other } e = (o e).getD (other e)) (e' : Est) (h : o e' = o e) :
    (o e').getD (W.other e') = Est.result W e := by
  have h0 := hm fun _ => .ok 0
  have h1 := hm fun _ => .ok 1
  have hw := ho W.other
  rw [h]
  cases hx : o e with
  | some x => rw [hx] at hw; exact hw.symm
  | none =>
    rw [ho, hx, Option.getD_none] at h0 h1
    rw [← h0] at h1
    exact absurd (Except.ok.inj h1) (by norm_num)

theorem num_result {e : Est} (hf : e.cls.fam ∈ continuousFams) (hm : ∀ other, Est.result { W with other := other } e = Est.result W e) :
    Est.result W e.asFloat = Est.result W e := by
  obtain ⟨⟨kind, fam⟩, data, cond, par⟩ := e
  cases kind with
  | h => exact modelled_some hm (Est.entropy W) (fun _ => rfl) _ (num_entropy W _ hf)
  | mi => exact modelled_some hm (Est.mi W) (fun _ => rfl) _ (num_mi W _ hf)
  | cmi => exact modelled_some hm (Est.cmi W) (fun _ => rfl) _ (num_cmi W _ hf)
  | te => exact modelled_some hm (Est.teVal W) (fun _ => rfl) _ (num_teVal W _ hf)
  | cte => exact modelled_some hm (Est.cteVal W) (fun _ => rfl) _ (num_cteVal W _ hf)

/-- **C89** Integer arrays: for the ordinal, kernel, nearest-neighbour, Rényi and Tsallis approaches every public function returns (or raises) the same
for integer arrays and for float arrays with the same numbers, also inside a tuple and as condition. -/
theorem C89_int_data (fn : PubFn) (hn : Names W.lower (fn.kind cond) a f) (hf : f ∈ continuousFams) (hm : fn.Modelled W data a cond kw) :
    fn.run W (data.map PyData.asFloat) a cond.asFloat kw = fn.run W data a cond kw := by
  by_cases ht : fn.Takes data cond
  · have hn' : Names W.lower (fn.kind cond.asFloat) a f := by rw [num_kind]; exact hn
    have hm' : ∀ other, fn.run { W with other := other } data a cond kw = fn.run W data a cond kw := hm
    rw [pubFn_ok hn' ((num_takes fn data cond).2 ht), num_kind, num_build]
    have h1 : ∀ other : Est → Except Exc ℝ, fn.run { W with other := other } data a cond kw =
      (buildEst W { cls := ⟨fn.kind cond, f⟩, data := data, cond := cond, kw := kw }) >>= Est.result { W with other := other } :=
        fun other => pubFn_ok (W := { W with other := other }) hn ht kw
    have h2 := pubFn_ok hn ht kw
    simp only [h1] at hm'
    rw [h2]
    cases hb : buildEst W { cls := ⟨fn.kind cond, f⟩, data := data, cond := cond, kw := kw } with
    | error x => rfl
    | ok e =>
      rw [hb] at hm'
      exact num_result (by rw [build_cls hb]; exact hf) hm'
  · rw [C82_value_error fn data a cond _ (.inr ht), C82_value_error fn _ a _ _ (.inr (fun h => ht ((num_takes fn data cond).1 h)))]

section
variable {meas : String} {c : Option PyData} {k : Kind}

theorem num_asks (hk : Asks W.lower meas data c k) : Asks W.lower meas (data.map PyData.asFloat) (c.map PyData.asFloat) k := by
  cases k <;> simpa [Asks] using hk

theorem num_condOf (c : Option PyData) : condOf (c.map PyData.asFloat) = (condOf c).asFloat := by cases c <;> rfl
theorem num_factoryKw (c : Option PyData) (kw : Kw) (k : Kind) : factoryKw (c.map PyData.asFloat) kw k = factoryKw c kw k := by
  cases c <;> cases k <;> rfl

theorem num_call_build (hk : Asks W.lower meas data c k) (hn : Names W.lower k a f) :
    ∃ call call', callEstimator W.lower PyVal.int data c (.str meas) a kw = .ok call ∧
      callEstimator W.lower PyVal.int (data.map PyData.asFloat) (c.map PyData.asFloat) (.str meas) a kw = .ok call' ∧
      call.cls = ⟨k, f⟩ ∧ buildEst W call' = (buildEst W call).map Est.asFloat := by
  refine ⟨_, _, asks_call (kw := kw) hk hn, asks_call (kw := kw) (num_asks hk) hn, rfl, ?_⟩
  rw [num_condOf, num_factoryKw]
  exact num_build _ _ _ _

/-- **C89** The same for local values, … -/
theorem C89_int_local (hk : Asks W.lower meas data c k) (hn : Names W.lower k a f) (hf : f ∈ continuousFams) :
    imLocal W (data.map PyData.asFloat) (c.map PyData.asFloat) (.str meas) a kw = imLocal W data c (.str meas) a kw := by
  obtain ⟨call, call', h1, h2, hc, hb⟩ := num_call_build (kw := kw) hk hn
  unfold imLocal
  simp only [h1, h2, hb]
  obtain ⟨cls, cd, cc, ck⟩ := call
  cases he : buildEst W ⟨cls, cd, cc, ck⟩ with
  | error x => rfl
  | ok e =>
    have hcls := build_cls he
    simp only [Except.map]
    have hf' : e.cls.fam ∈ continuousFams := by rw [hcls]; simp only at hc; rw [hc]; exact hf
    unfold Est.locals
    rw [num_cls, num_entropyLocal W e hf', num_miLocals W e hf', num_cmiLocals W e hf', num_teLocals W e hf', num_cteLocals W e hf']

/-- **C89** … statistical tests … -/
theorem C89_int_test {G : Type} (E : TestEnv G) (nT : Option PyArg) (mth : Option String) (g : G)
    (hk : Asks W.lower meas data c k) (hn : Names W.lower k a f) (hf : f ∈ continuousFams) :
    imTest E W nT mth g (data.map PyData.asFloat) (c.map PyData.asFloat) (.str meas) a kw = imTest E W nT mth g data c (.str meas) a kw := by
  obtain ⟨call, call', h1, h2, hc, hb⟩ := num_call_build (kw := kw) hk hn
  unfold imTest
  simp only [h1, h2, hb]
  obtain ⟨cls, cd, cc, ck⟩ := call
  cases he : buildEst W ⟨cls, cd, cc, ck⟩ with
  | error x => rfl
  | ok e =>
    have hcls := build_cls he
    simp only [Except.map]
    have hf' : e.cls.fam ∈ continuousFams := by rw [hcls]; simp only at hc; rw [hc]; exact hf
    unfold Est.test
    rw [num_cls, num_miObj W e hf', num_cmiObj W e hf', num_teObj W e hf', num_cteObj W e hf']

/-- **C89** … and effective values. -/
theorem C89_int_effective {G : Type} (E : TestEnv G) (mth : Option String) (g : G)
    (hk : Asks W.lower meas data c k) (hn : Names W.lower k a f) (hf : f ∈ continuousFams) :
    imEffective E W mth g (data.map PyData.asFloat) (c.map PyData.asFloat) (.str meas) a kw = imEffective E W mth g data c (.str meas) a kw := by
  obtain ⟨call, call', h1, h2, hc, hb⟩ := num_call_build (kw := kw) hk hn
  unfold imEffective
  simp only [h1, h2, hb]
  obtain ⟨cls, cd, cc, ck⟩ := call
  cases he : buildEst W ⟨cls, cd, cc, ck⟩ with
  | error x => rfl
  | ok e =>
    have hcls := build_cls he
    simp only [Except.map]
    have hf' : e.cls.fam ∈ continuousFams := by rw [hcls]; simp only at hc; rw [hc]; exact hf
    unfold Est.effective
    rw [num_cls, num_miObj W e hf', num_cmiObj W e hf', num_teObj W e hf', num_cteObj W e hf']

end

end Verif
