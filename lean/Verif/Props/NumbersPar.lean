import Verif.Lemmas.NumbersPar
import Verif.Props.Numbers

/-!
# C89: integers and floats as parameters

Concrete calls that meet the hypotheses are in `Props/NumbersEx.lean`.
-/

namespace Verif

open Spec

variable {W : World} {data : List PyData} {a : PyName} {cond : CondKw PyData} {kw : Kw} {f : Fam} {key : String} {n : Int}

theorem realKw_ne {j : String} (hk : key ∈ realKw) (hj : j ∉ realKw) : key ≠ j := fun h => hj (h ▸ hk)

/-- the estimators built by the two calls: the same error, the same estimator, or two that differ in the one parameter -/
theorem ptw_build (cls : EstClass) (data : List PyData) (cond : CondKw PyData) (kw : Kw) (hk : key ∈ realKw) :
    buildEst W { cls := cls, data := data, cond := cond, kw := kw.set key (.num n) } = buildEst W { cls := cls, data := data, cond := cond, kw := kw.set key (.int n) } ∨
    ∃ e p', buildEst W { cls := cls, data := data, cond := cond, kw := kw.set key (.int n) } = .ok e ∧
      buildEst W { cls := cls, data := data, cond := cond, kw := kw.set key (.num n) } = .ok { e with par := p' } ∧ NumTwin key n e p' := by
  simp only [buildEst, bind]
  rcases twin_ctor (key := key) (v := .int n) (w := .num n) W.b0 cls data cond kw (realKw_ne hk (by decide)) with ⟨e, e1, e2⟩ | ⟨p, p', e1, e2, hp⟩
  · exact .inl (by rw [e1, e2])
  · rw [e1, e2]
    rcases hp.2 with hq | ⟨h1, h2⟩
    · have : p' = p := funext fun k => by
        by_cases hkk : k = key
        · rw [hkk, hq]
        · rw [hp.1 k hkk]
      exact .inl (by rw [this])
    · exact .inr ⟨⟨cls, data, cond.toOption, p⟩, p', rfl, rfl, ⟨fun k hkk => (hp.1 k hkk).symm, h1, h2⟩⟩

theorem ptw_result {e : Est} {p' : Kw} (hk : key ∈ realKw) (h : NumTwin key n e p') (hm : ∀ other, Est.result { W with other := other } e = Est.result W e) :
    Est.result W { e with par := p' } = Est.result W e := by
  obtain ⟨⟨kind, fam⟩, data, cond, par⟩ := e
  cases kind with
  | h => exact modelled_some hm (Est.entropy W) (fun _ => rfl) _ (ptw_entropy W hk h)
  | mi => exact modelled_some hm (Est.mi W) (fun _ => rfl) _ (ptw_mi W hk h)
  | cmi => exact modelled_some hm (Est.cmi W) (fun _ => rfl) _ (ptw_cmi W hk h)
  | te => exact modelled_some hm (Est.teVal W) (fun _ => rfl) _ (ptw_teVal W hk h)
  | cte => exact modelled_some hm (Est.cteVal W) (fun _ => rfl) _ (ptw_cteVal W hk h)

/-- **C89** Integer parameters: every public function, with every approach, returns (or raises) the same whether a real-valued parameter (the logarithm base,
`bandwidth`, `alpha`, `q`, `noise_level`, `minkowski_p`, `undersampled`) is an integer or the same number as a float. -/
theorem C89_int_param (fn : PubFn) (hk : key ∈ realKw) (hm : fn.Modelled W data a cond (withKw kw key (.int n))) :
    fn.run W data a cond (withKw kw key (.num n)) = fn.run W data a cond (withKw kw key (.int n)) := by
  change fn.Modelled W data a cond (kw.set key (.int n)) at hm
  change fn.run W data a cond (kw.set key (.num n)) = fn.run W data a cond (kw.set key (.int n))
  by_cases ht : fn.Takes data cond
  swap
  · rw [C82_value_error fn data a cond _ (.inr ht), C82_value_error fn data a cond _ (.inr ht)]
  by_cases hr : ∃ f, Names W.lower (fn.kind cond) a f
  swap
  · rw [C82_value_error fn data a cond _ (.inl (not_exists.1 hr)), C82_value_error fn data a cond _ (.inl (not_exists.1 hr))]
  obtain ⟨f, hn⟩ := hr
  have hm' : ∀ other, fn.run { W with other := other } data a cond (kw.set key (.int n)) = fn.run W data a cond (kw.set key (.int n)) := hm
  have h1 : ∀ other : Est → Except Exc ℝ, fn.run { W with other := other } data a cond (kw.set key (.int n)) =
    (buildEst W { cls := ⟨fn.kind cond, f⟩, data := data, cond := cond, kw := kw.set key (.int n) }) >>= Est.result { W with other := other } :=
      fun other => pubFn_ok (W := { W with other := other }) hn ht _
  have h2 := pubFn_ok hn ht (kw.set key (.int n))
  simp only [h1, h2] at hm'
  rw [h2, pubFn_ok hn ht (kw.set key (.num n))]
  rcases ptw_build (W := W) (n := n) ⟨fn.kind cond, f⟩ data cond kw hk with he | ⟨e, p', e1, e2, hp⟩
  · rw [he]
  · rw [e1] at hm'
    rw [e1, e2]
    exact ptw_result hk hp hm'

section
variable {meas : String} {c : Option PyData} {k : Kind}

theorem ptw_factoryKw (hk : key ∈ realKw) (c : Option PyData) (kw : Kw) (v : PyVal) (k : Kind) :
    factoryKw c (kw.set key v) k = Kw.set (factoryKw c kw k) key v := by
  have hs : key ≠ "step_size" ∧ key ≠ "prop_time" ∧ key ≠ "src_hist_len" ∧ key ≠ "dest_hist_len" ∧ key ≠ "cond_hist_len" :=
    ⟨realKw_ne hk (by decide), realKw_ne hk (by decide), realKw_ne hk (by decide), realKw_ne hk (by decide), realKw_ne hk (by decide)⟩
  funext x
  by_cases hx : x = key
  · subst hx
    rw [kw_set_self]
    cases k <;> cases c <;> simp [factoryKw, factoryTeKw, teKw, restKw, Kw.set, namedParams, hs]
  · rw [kw_set_ne _ _ hx]
    cases k <;> cases c <;> simp [factoryKw, factoryTeKw, teKw, restKw, Kw.set, hx]

theorem ptw_call (hr : key ∈ realKw) (hk : Asks W.lower meas data c k) (hn : Names W.lower k a f) :
    ∃ call call', callEstimator W.lower PyVal.int data c (.str meas) a (kw.set key (.int n)) = .ok call ∧
      callEstimator W.lower PyVal.int data c (.str meas) a (kw.set key (.num n)) = .ok call' ∧
      (buildEst W call' = buildEst W call ∨ ∃ e p', buildEst W call = .ok e ∧ buildEst W call' = .ok { e with par := p' } ∧ NumTwin key n e p') := by
  refine ⟨_, _, asks_call (kw := kw.set key (.int n)) hk hn, asks_call (kw := kw.set key (.num n)) hk hn, ?_⟩
  rw [ptw_factoryKw hr, ptw_factoryKw hr]
  exact ptw_build _ _ _ _ hr

/-- **C89** The same for local values, … -/
theorem C89_int_param_local (hr : key ∈ realKw) (hk : Asks W.lower meas data c k) (hn : Names W.lower k a f) :
    imLocal W data c (.str meas) a (withKw kw key (.num n)) = imLocal W data c (.str meas) a (withKw kw key (.int n)) := by
  change imLocal W data c (.str meas) a (kw.set key (.num n)) = imLocal W data c (.str meas) a (kw.set key (.int n))
  obtain ⟨call, call', h1, h2, hb⟩ := ptw_call (kw := kw) (n := n) hr hk hn
  unfold imLocal
  simp only [h1, h2]
  rcases hb with hb | ⟨e, p', e1, e2, hp⟩
  · rw [hb]
  · simp only [e1, e2]
    unfold Est.locals
    rw [ptw_entropyLocal W hr hp, ptw_miLocals W hr hp, ptw_cmiLocals W hr hp, ptw_teLocals W hr hp, ptw_cteLocals W hr hp]

/-- **C89** … statistical tests … -/
theorem C89_int_param_test {G : Type} (E : TestEnv G) (nT : Option PyArg) (mth : Option String) (g : G) (hr : key ∈ realKw)
    (hk : Asks W.lower meas data c k) (hn : Names W.lower k a f) :
    imTest E W nT mth g data c (.str meas) a (withKw kw key (.num n)) = imTest E W nT mth g data c (.str meas) a (withKw kw key (.int n)) := by
  change imTest E W nT mth g data c (.str meas) a (kw.set key (.num n)) = imTest E W nT mth g data c (.str meas) a (kw.set key (.int n))
  obtain ⟨call, call', h1, h2, hb⟩ := ptw_call (kw := kw) (n := n) hr hk hn
  unfold imTest
  simp only [h1, h2]
  rcases hb with hb | ⟨e, p', e1, e2, hp⟩
  · rw [hb]
  · simp only [e1, e2]
    unfold Est.test
    rw [ptw_miObj W hr hp, ptw_cmiObj W hr hp, ptw_teObj W hr hp, ptw_cteObj W hr hp]

/-- **C89** … and effective values. -/
theorem C89_int_param_effective {G : Type} (E : TestEnv G) (mth : Option String) (g : G) (hr : key ∈ realKw)
    (hk : Asks W.lower meas data c k) (hn : Names W.lower k a f) :
    imEffective E W mth g data c (.str meas) a (withKw kw key (.num n)) = imEffective E W mth g data c (.str meas) a (withKw kw key (.int n)) := by
  change imEffective E W mth g data c (.str meas) a (kw.set key (.num n)) = imEffective E W mth g data c (.str meas) a (kw.set key (.int n))
  obtain ⟨call, call', h1, h2, hb⟩ := ptw_call (kw := kw) (n := n) hr hk hn
  unfold imEffective
  simp only [h1, h2]
  rcases hb with hb | ⟨e, p', e1, e2, hp⟩
  · rw [hb]
  · simp only [e1, e2]
    unfold Est.effective
    rw [ptw_miObj W hr hp, ptw_cmiObj W hr hp, ptw_teObj W hr hp, ptw_cteObj W hr hp]

end

end Verif
