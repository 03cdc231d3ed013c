import Verif.Props.EndToEndLocal
import Verif.Props.EndToEndEx
import Verif.Props.CondTE2
import Verif.Props.OrdinalMI2
import Verif.Props.OrdinalTE2
import Verif.Props.Bias2

/-!
# C84: local values end to end, with all arguments given

For each approach with local values: `im.estimator(…).local_vals()` returns as many values as there are samples (rows, windows), and their
mean is `im.estimator(…).result()`.
-/

namespace Verif

open Spec

variable {W : World} {data : List PyData} {c : Option PyData} {m : String} {a : PyName} {kw : Kw} {k : Kind} {f : Fam} {b : Base}

/-- **The statement**: both calls return; there are `n` local values, and their mean is the value -/
def LocalMean (W : World) (data : List PyData) (c : Option PyData) (m : String) (a : PyName) (kw : Kw) (n : Nat) : Prop :=
  ∃ g ls, imEstimator W data a kw c (.str m) = .ok g ∧ imLocal W data c (.str m) a kw = some (.ok ls) ∧ ls.length = n ∧ mean ls = g

/-- the keyword arguments the factory does not drop: without transfer entropy none of the five named parameters, and the history length of
the condition only with a condition -/
def Kept (kw : Kw) : Kind → Prop
  | .te => kw "cond_hist_len" = none
  | .cte => True
  | _ => NoNamed kw

theorem factory_named {f : Fam} {k : Kind} (hk : k = .te ∨ k = .cte) (b0 : PyVal) {o : String × PyVal} (ho : o ∈ optionalKw b0 ⟨k, f⟩)
    (hn : o.1 ∈ namedParams) : teDefault PyVal.int o.1 = some o.2 := by
  have key : ∀ p ∈ optionalKw b0 ⟨k, f⟩, p.1 ∈ namedParams → teDefault PyVal.int p.1 = some p.2 := by
    rcases hk with rfl | rfl <;> cases f <;>
      simp [optionalKw, ownKw, normalizeKw, commonKw, namedParams, teDefault]
  exact key o ho hn

theorem required_not_named {f : Fam} {k : Kind} {r : String} (h : r ∈ requiredKw k f) : r ∉ namedParams := by
  cases k <;> cases f <;> simp [requiredKw] at h <;> first | (subst h; decide) | (rcases h with rfl | rfl <;> decide)

theorem factoryTe_eq (c : Option PyData) (kw : Kw) (hc : c = none → kw "cond_hist_len" = none) (r : String) :
    factoryTeKw PyVal.int c kw r = if r ∈ namedParams ∧ (c = none → r ≠ "cond_hist_len") then (kw r).or (teDefault PyVal.int r) else kw r := by
  by_cases hr : r ∈ namedParams
  · cases c with
    | none =>
      by_cases h : r = "cond_hist_len"
      · subst h; simp [factoryTeKw, teKw, restKw, namedParams, hc rfl]
      · rw [if_pos ⟨hr, fun _ => h⟩]
        simp only [factoryTeKw, teKw]
        rw [if_pos]
        simp only [namedParams, List.mem_cons, List.not_mem_nil, or_false] at hr ⊢
        tauto
    | some z =>
      rw [if_pos ⟨hr, by simp⟩]
      simp only [factoryTeKw, teKw]
      rw [if_pos]
      simp only [namedParams, List.mem_cons, List.not_mem_nil, or_false] at hr ⊢
      tauto
  · rw [if_neg (fun h => hr h.1)]
    have h' : r ∉ ["prop_time", "src_hist_len", "dest_hist_len", "step_size"] ∧
        r ∉ ["prop_time", "src_hist_len", "dest_hist_len", "cond_hist_len", "step_size"] := by
      simp only [namedParams, List.mem_cons, List.not_mem_nil, or_false] at hr ⊢
      tauto
    cases c <;> simp only [factoryTeKw, teKw, restKw, if_neg h'.1, if_neg h'.2, if_neg hr]

/-- what the two calls evaluate -/
theorem local_ctor (hk : Asks W.lower m data c k) (h : Call W k f a kw b) (hkept : Kept kw k) (hr : ∀ r ∈ requiredKw k f, kw r ≠ none) :
    ∃ p, buildEst W { cls := ⟨k, f⟩, data := data, cond := condOf c, kw := factoryKw c kw k } = .ok ⟨⟨k, f⟩, data, c, p⟩ ∧
      (∀ r ∈ requiredKw k f, p r = kw r) ∧
      ∀ o ∈ optionalKw W.b0 ⟨k, f⟩, p o.1 = some (kwOr kw o.1 o.2) := by
  have hcond : c = none → k = .te ∨ k = .cte → kw "cond_hist_len" = none := by
    rintro rfl (rfl | rfl)
    · exact hkept
    · obtain ⟨_, h2, _⟩ := hk; simp at h2
  have hval : ∀ r, factoryKw c kw k r = kw r ∨ (k = .te ∨ k = .cte) ∧ r ∈ namedParams ∧ (c = none → r ≠ "cond_hist_len") ∧
      factoryKw c kw k r = (kw r).or (teDefault PyVal.int r) := by
    intro r
    have te : k = .te ∨ k = .cte → factoryKw c kw k = factoryTeKw PyVal.int c kw := by rintro (rfl | rfl) <;> rfl
    by_cases h1 : k = .te ∨ k = .cte
    · rw [te h1, factoryTe_eq c kw (fun hc => hcond hc h1)]
      split_ifs with h2
      · exact .inr ⟨h1, h2.1, h2.2, rfl⟩
      · exact .inl rfl
    · left
      cases k <;> simp at h1 <;> exact congrFun (restKw_of_noNamed hkept) r
  have hd : arityOk k data.length := by
    cases k with
    | te => exact hk.2.2
    | cte => exact hk.2.2
    | _ => trivial
  have hok : (condOf c).okFor k := by
    cases k with
    | h => rcases hk with ⟨_, rfl, _⟩ | ⟨_, rfl, _⟩ <;> trivial
    | mi => obtain ⟨_, rfl, _⟩ := hk; trivial
    | te => obtain ⟨_, rfl, _⟩ := hk; trivial
    | cmi => obtain ⟨_, h2, _⟩ := hk; cases c <;> [simp at h2; trivial]
    | cte => obtain ⟨_, h2, _⟩ := hk; cases c <;> [simp at h2; trivial]
  have hreq : ∀ r ∈ requiredKw k f, factoryKw c kw k r = kw r := by
    intro r h1
    rcases hval r with h2 | ⟨_, h2, _⟩
    · exact h2
    · exact absurd h2 (required_not_named h1)
  have hacc : Only (acceptedKw W.b0 ⟨k, f⟩) (factoryKw c kw k) := by
    intro r hne
    rcases hval r with h2 | ⟨h1, h2, h3, h4⟩
    · exact h.accepted r (h2 ▸ hne)
    · have : r ∈ (commonKw W.b0 k).map Prod.fst := by
        simp only [namedParams, List.mem_cons, List.not_mem_nil, or_false] at h2
        rcases h1 with rfl | rfl <;> rcases h2 with rfl | rfl | rfl | rfl | rfl <;> simp [commonKw]
      unfold acceptedKw optionalKw
      simp only [List.mem_append, List.map_append]
      exact .inl (.inr (.inr this))
  obtain ⟨p, hp, h1, h2⟩ := built W { cls := ⟨k, f⟩, data := data, cond := condOf c, kw := factoryKw c kw k } hd hok
    (fun r h1 => by change factoryKw c kw k r ≠ none; rw [hreq r h1]; exact hr r h1) hacc
  refine ⟨p, by rw [hp]; simp only [condOf_toOption], fun r h3 => (h1 r h3).trans (hreq r h3), fun o ho => ?_⟩
  · rw [h2 o ho]
    congr 1
    change (factoryKw c kw k o.1).getD o.2 = (kw o.1).getD o.2
    rcases hval o.1 with h3 | ⟨h1, h3, _, h4⟩
    · rw [h3]
    · rw [h4, factory_named h1 W.b0 ho h3]; cases kw o.1 <;> rfl

theorem local_built (hk : Asks W.lower m data c k) (h : Call W k f a kw b) (hkept : Kept kw k) (hr : ∀ r ∈ requiredKw k f, kw r ≠ none) :
    ∃ p, imEstimator W data a kw c (.str m) = Est.result W ⟨⟨k, f⟩, data, c, p⟩ ∧
      imLocal W data c (.str m) a kw = Est.locals W ⟨⟨k, f⟩, data, c, p⟩ ∧ (∀ r ∈ requiredKw k f, p r = kw r) ∧
      ∀ o ∈ optionalKw W.b0 ⟨k, f⟩, p o.1 = some (kwOr kw o.1 o.2) := by
  have hcall := asks_call (kw := kw) hk h.name
  obtain ⟨p, hp, h1, h2⟩ := local_ctor hk h hkept hr
  refine ⟨p, ?_, ?_, h1, h2⟩
  · unfold imEstimator; simp only [hcall, runCall, bind, Except.bind, hp]
  · unfold imLocal; simp only [hcall, hp]

/-- reads one optional keyword argument -/
theorem getOpt {p : Kw} {n : String} {d : PyVal} {α : Type} {g : PyVal → Option α} {v : α}
    (ho : ∀ o ∈ optionalKw W.b0 ⟨k, f⟩, p o.1 = some (kwOr kw o.1 o.2)) (hm : (n, d) ∈ optionalKw W.b0 ⟨k, f⟩)
    (hv : g (kwOr kw n d) = some v) : Est.get ⟨⟨k, f⟩, data, c, p⟩ n g = some v := by
  show (p n).bind g = _
  rw [ho (n, d) hm]; exact hv

theorem getReq {p : Kw} {n : String} {α : Type} {g : PyVal → Option α} {v : α} {w : PyVal}
    (hr : ∀ r ∈ requiredKw k f, p r = kw r) (hm : n ∈ requiredKw k f) (hw : kw n = some w)
    (hv : g w = some v) : Est.get ⟨⟨k, f⟩, data, c, p⟩ n g = some v := by
  show (p n).bind g = _
  rw [hr n hm, hw]; exact hv

/-- from the two model functions to the statement -/
theorem localMean_of {n : Nat} {e : Est} {g : ℝ} {ls : List ℝ} (h1 : imEstimator W data a kw c (.str m) = e.result W)
    (h2 : imLocal W data c (.str m) a kw = e.locals W) (h3 : e.result W = .ok g) (h4 : e.locals W = some (.ok ls))
    (h5 : ls.length = n) (h6 : mean ls = g) : LocalMean W data c m a kw n :=
  ⟨g, ls, h1.trans h3, h2.trans h4, h5, h6⟩

macro "opt" : tactic => `(tactic| simp [optionalKw, ownKw, normalizeKw, commonKw, defaultNoise])

/-! ## Entropy -/

/-- what `local_vals()` of a discrete entropy class evaluates -/
theorem local_discreteH (hk : Asks W.lower m [.ints xs] none .h) (h : Call W .h f a kw b) (hkept : NoNamed kw)
    (hf : f ∈ [Fam.discrete, .millerMadow, .grassberger, .zhang, .shrink]) (hx : xs ≠ []) :
    ∃ d : DClass, (f = .discrete → d = .discrete) ∧ (f = .millerMadow → d = .millerMadow) ∧ (f = .grassberger → d = .grassberger) ∧
      (f = .zhang → d = .zhang) ∧ (f = .shrink → d = .shrink) ∧
      imEstimator W [.ints xs] a kw none (.str m) = d.simple b (mkData xs) ∧
      imLocal W [.ints xs] none (.str m) a kw = some (afterGlobal (d.simple b (mkData xs)) (d.localVals b (mkData xs))) := by
  have hxs : [PyData.ints xs].mapM PyData.toEInput = some [.arr1 xs] := rfl
  have hreq : ∀ r ∈ requiredKw .h f, kw r ≠ none := by
    simp only [List.mem_cons, List.not_mem_nil, or_false] at hf
    rcases hf with rfl | rfl | rfl | rfl | rfl <;> simp [requiredKw]
  obtain ⟨p, h1, h2, hr, ho⟩ := local_built hk h hkept hreq
  have hb := getOpt (data := [.ints xs]) (c := none) ho (n := "base") (d := W.b0) (by opt) h.base
  rw [h1, h2]
  simp only [List.mem_cons, List.not_mem_nil, or_false] at hf
  rcases hf with rfl | rfl | rfl | rfl | rfl
  · refine ⟨.discrete, ?_⟩
    simp [Est.result, Est.locals, Est.entropy, Est.entropyLocal, hb, Est.dclass, hxs, discreteHLocal, discreteHInit_arr1 hx, bind, Except.bind,
      dclass_arr1 _ b hx]
  · refine ⟨.millerMadow, ?_⟩
    simp [Est.result, Est.locals, Est.entropy, Est.entropyLocal, hb, Est.dclass, hxs, discreteHLocal, discreteHInit_arr1 hx, bind, Except.bind,
      dclass_arr1 _ b hx]
  · refine ⟨.grassberger, ?_⟩
    simp [Est.result, Est.locals, Est.entropy, Est.entropyLocal, hb, Est.dclass, hxs, discreteHLocal, discreteHInit_arr1 hx, bind, Except.bind,
      dclass_arr1 _ b hx]
  · refine ⟨.zhang, ?_⟩
    simp [Est.result, Est.locals, Est.entropy, Est.entropyLocal, hb, Est.dclass, hxs, discreteHLocal, discreteHInit_arr1 hx, bind, Except.bind,
      dclass_arr1 _ b hx]
  · refine ⟨.shrink, ?_⟩
    simp [Est.result, Est.locals, Est.entropy, Est.entropyLocal, hb, Est.dclass, hxs, discreteHLocal, discreteHInit_arr1 hx, bind, Except.bind,
      dclass_arr1 _ b hx]

/-- **C84** The local values of the plug-in entropy are the surprisals of the samples, in their order. -/
theorem C84_entropy_surprisal (hk : Asks W.lower m [.ints xs] none .h) (h : Call W .h .discrete a kw b) (hkept : NoNamed kw)
    (hb : b.Valid) (hx : xs ≠ []) :
    imLocal W [.ints xs] none (.str m) a kw = some (.ok (xs.map fun x => - Real.log (freq xs x) / b.ln)) := by
  obtain ⟨d, hd, -, -, -, -, e1, e2⟩ := local_discreteH hk h hkept (by simp) hx
  obtain rfl := hd rfl
  obtain ⟨l, H, h1, h2, h3, -⟩ := C06_local_entropy xs hx b hb
  simp only [discreteEntropyLocal, discreteHInit_arr1 hx, bind, Except.bind] at h1
  rw [← dclass_arr1 .discrete b hx, show DClass.globalVal .discrete b [.arr1 xs] = discreteEntropy [.arr1 xs] b from rfl, h2] at e2
  rw [e2, ← h3, ← h1]; rfl

/-- **C84** Plug-in, Miller–Madow, Grassberger and Zhang entropies are the mean of one local value per sample. -/
theorem C84_entropy_mean (hk : Asks W.lower m [.ints xs] none .h) (h : Call W .h f a kw b) (hkept : NoNamed kw)
    (hf : f ∈ [Fam.discrete, .millerMadow, .grassberger, .zhang]) (hb : b.Valid) (hx : xs ≠ []) :
    LocalMean W [.ints xs] none m a kw xs.length := by
  obtain ⟨d, hd1, hd2, hd3, hd4, -, e1, e2⟩ := local_discreteH hk h hkept (by
    simp only [List.mem_cons, List.not_mem_nil, or_false] at hf ⊢; tauto) hx
  simp only [List.mem_cons, List.not_mem_nil, or_false] at hf
  have fin : ∀ (est : HEst), (est = millerMadowH b ∨ est = grassbergerH b ∨ est = zhangH b) → d.simple b (mkData xs) = est.globalVal (mkData xs) →
      d.localVals b (mkData xs) = est.localVals (mkData xs) → LocalMean W [.ints xs] none m a kw xs.length := by
    intro est he h1 h2
    obtain ⟨g, ls, h3, h4, h5, h6⟩ := C34_local_mean xs hx b hb est he
    rw [HEst.entropy_arr1 _ hx] at h3
    rw [HEst.locals_arr1 _ hx] at h4
    refine ⟨g, ls, by rw [e1, h1, h3], by rw [e2, h1, h2, h3, h4]; rfl, h5, h6⟩
  rcases hf with rfl | rfl | rfl | rfl
  · obtain rfl := hd1 rfl
    obtain ⟨l, H, h1, h2, h3, h4, h5⟩ := C06_local_entropy xs hx b hb
    have e3 := C84_entropy_surprisal hk h hkept hb hx
    refine ⟨H, _, by rw [e1, ← dclass_arr1 .discrete b hx]; exact h2, e3, by simp, by rw [← h3]; assumption⟩
  · obtain rfl := hd2 rfl; exact fin _ (.inl rfl) rfl rfl
  · obtain rfl := hd3 rfl; exact fin _ (.inr (.inl rfl)) rfl rfl
  · obtain rfl := hd4 rfl; exact fin _ (.inr (.inr rfl)) rfl rfl

/-- **C84** (negative) For the shrinkage entropy the mean of the local values is not the value. -/
theorem C84_shrink_entropy_mean_fails (hk : Asks W.lower m [.ints [0, 0, 0, 0, 0, 0, 0, 1]] none .h) (h : Call W .h .shrink a kw .e)
    (hkept : NoNamed kw) :
    ∃ g ls, imEstimator W [.ints [0, 0, 0, 0, 0, 0, 0, 1]] a kw none (.str m) = .ok g ∧
      imLocal W [.ints [0, 0, 0, 0, 0, 0, 0, 1]] none (.str m) a kw = some (.ok ls) ∧ mean ls ≠ g := by
  obtain ⟨d, -, -, -, -, hd, e1, e2⟩ := local_discreteH hk h hkept (by simp) (by simp)
  obtain rfl := hd rfl
  obtain ⟨g, ls, h1, h2, h3⟩ := C34_shrink_local_mean_fails
  rw [HEst.entropy_arr1 _ (by simp)] at h1
  rw [HEst.locals_arr1 _ (by simp)] at h2
  rw [show DClass.simple .shrink .e = (shrinkH .e).globalVal from rfl, h1] at e1 e2
  rw [show DClass.localVals .shrink .e = (shrinkH .e).localVals from rfl, h2] at e2
  exact ⟨g, ls, e1, e2, h3⟩

/-- **C84** Permutation entropy: one local value per window, their mean is the value. -/
theorem C84_ordinal_entropy_mean (xs : List ℝ) (hk : Asks W.lower m [.reals xs] none .h) (h : Call W .h .ordinal a kw b) (hkept : NoNamed kw)
    (hb : b.Valid) (d : Nat) (st : Bool) (h1 : kw "embedding_dim" = some (.int d)) (h3 : kwOr kw "stable" (.bool false) = .bool st)
    (hd : 2 ≤ d) (hn : d - 1 < xs.length) : LocalMean W [.reals xs] none m a kw (xs.length - (d - 1)) := by
  obtain ⟨p, e1, e2, hr, ho⟩ := local_built hk h hkept (by simp [requiredKw, h1])
  have g1 := getOpt (data := [.reals xs]) (c := none) ho (n := "base") (d := W.b0) (by opt) h.base
  have g2 := getReq (data := [.reals xs]) (c := none) hr (n := "embedding_dim") (g := PyVal.toArg) (v := .int d) (by simp [requiredKw]) h1 rfl
  have g3 := getOpt (data := [.reals xs]) (c := none) ho (n := "step_size") (d := .int 1) (g := PyVal.toArg) (v := .int 1) (by opt)
    (by simp [kwOr, hkept "step_size" (by simp [namedParams]), PyVal.toArg])
  have g4 := getOpt (data := [.reals xs]) (c := none) ho (n := "stable") (d := .bool false) (g := PyVal.toBool) (v := st) (by opt) (by rw [h3]; rfl)
  obtain ⟨l, H, q1, q2, q3, q4⟩ := C28_local_values W.quick xs d 1 hd le_rfl (by simpa using hn) st b hb
  refine localMean_of e1 e2 (g := H) (ls := l) ?_ ?_ (by simpa using q3) q4
  · simpa [Est.result, Est.entropy, g1, Est.ord, g2, g3, g4, PyData.toOInput] using q2
  · simpa [Est.locals, Est.entropyLocal, g1, Est.ord, g2, g3, g4, PyData.toOInput] using q1

/-! ## Mutual information -/

/-- **C84** Plug-in and Miller–Madow mutual information of any number of variables. -/
theorem C84_mi_mean (cols : List (List Int)) (N : Nat) (hk : Asks W.lower m (cols.map .ints) none .mi) (h : Call W .mi f a kw b)
    (hf : f = .discrete ∨ f = .millerMadow) (hkept : NoNamed kw) (ho : kwOr kw "offset" (.int 0) = .int 0) (hN : 0 < N)
    (hl : ∀ x ∈ cols, x.length = N) (hov : N ^ cols.length < 2 ^ 64) (hb : b.Std) :
    LocalMean W (cols.map .ints) none m a kw N := by
  have h2 : 2 ≤ cols.length := by simpa using hk.2.2
  have hx := mapM_ints cols
  rcases hf with rfl | rfl
  · obtain ⟨p, e1, e2, hr, hopt⟩ := local_built hk h hkept (by simp [requiredKw])
    have g1 := getOpt (data := cols.map .ints) (c := none) hopt (n := "base") (d := W.b0) (by opt) h.base
    have g2 := getOpt (data := cols.map .ints) (c := none) hopt (n := "offset") (d := .int 0) (g := PyVal.toOptInt) (v := some 0) (by opt) (by rw [ho]; rfl)
    obtain ⟨g, ls, q1, q2, q3, q4⟩ := C15_local_mi_mean cols N hN h2 hl hov b hb false
    refine localMean_of e1 e2 (g := g) (ls := ls) ?_ ?_ q3 q4
    · simpa [Est.result, Est.mi, g1, g2, hx] using q1
    · simp [Est.locals, Est.miLocals, g1, g2, hx, q1, q2, afterGlobal]
  · obtain ⟨p, e1, e2, hr, hopt⟩ := local_built hk h hkept (by simp [requiredKw])
    have g1 := getOpt (data := cols.map .ints) (c := none) hopt (n := "base") (d := W.b0) (by opt) h.base
    have g2 := getOpt (data := cols.map .ints) (c := none) hopt (n := "offset") (d := .int 0) (g := PyVal.toOptInt) (v := some 0) (by opt) (by rw [ho]; rfl)
    obtain ⟨g, ls, q1, q2, q3, q4⟩ := C15_local_mi_mean cols N hN h2 hl hov b hb true
    refine localMean_of e1 e2 (g := g) (ls := ls) ?_ ?_ q3 q4
    · simpa [Est.result, Est.mi, g1, g2, hx] using q1
    · simp [Est.locals, Est.miLocals, g1, g2, hx, q1, q2, afterGlobal]

/-- **C84** Ordinal mutual information of two series: one local value per window. -/
theorem C84_ordinal_mi_mean (x y : List ℝ) (hk : Asks W.lower m [.reals x, .reals y] none .mi) (h : Call W .mi .ordinal a kw b)
    (hkept : NoNamed kw) (ho : kwOr kw "offset" (.int 0) = .int 0) (hxy : x.length = y.length) (d : Nat) (st : Bool)
    (h1 : kw "embedding_dim" = some (.int d)) (h3 : kwOr kw "stable" (.bool false) = .bool st)
    (hd : 2 ≤ d) (hn : d - 1 < x.length) (hov : x.length < 2 ^ 32) (hb : b.Std) :
    LocalMean W [.reals x, .reals y] none m a kw (x.length - (d - 1)) := by
  have hx : [PyData.reals x, .reals y].mapM PyData.toSeries = some [x, y] := rfl
  obtain ⟨p, e1, e2, hr, hopt⟩ := local_built hk h hkept (by simp [requiredKw])
  have g1 := getOpt (data := [.reals x, .reals y]) (c := none) hopt (n := "base") (d := W.b0) (by opt) h.base
  have g2 := getOpt (data := [.reals x, .reals y]) (c := none) hopt (n := "offset") (d := .int 0) (g := PyVal.toOptInt) (v := some 0) (by opt) (by rw [ho]; rfl)
  have g3 := getOpt (data := [.reals x, .reals y]) (c := none) hopt (n := "step_size") (d := .int 1) (g := PyVal.toArg) (v := .int 1) (by opt)
    (by simp [kwOr, hkept "step_size" (by simp [namedParams]), PyVal.toArg])
  have g4 := getOpt (data := [.reals x, .reals y]) (c := none) hopt (n := "stable") (d := .bool false) (g := PyVal.toBool) (v := st) (by opt) (by rw [h3]; rfl)
  have g5 := getOpt (data := [.reals x, .reals y]) (c := none) hopt (n := "embedding_dim") (d := .none) (g := PyVal.toArg) (v := .int d) (by opt) (by simp [kwOr, h1, PyVal.toArg])
  obtain ⟨g, ls, q1, q2, q3, q4⟩ := C56_local_mean W.quick x y hxy d 1 hd le_rfl (by simpa using hn) hov st b hb
  refine localMean_of e1 e2 (g := g) (ls := ls) ?_ ?_ (by simpa using q3) q4
  · simpa [Est.result, Est.mi, g1, g2, hx, Est.ord, g3, g4, g5] using q1
  · simpa [Est.locals, Est.miLocals, g1, g2, hx, Est.ord, g3, g4, g5] using q2

/-! ## Conditional mutual information -/

/-- **C84** Plug-in and Miller–Madow conditional mutual information. -/
theorem C84_cmi_mean (cols : List (List Int)) (z : List Int) (hk : Asks W.lower m (cols.map .ints) (some (.ints z)) .cmi) (h : Call W .cmi f a kw b)
    (hf : f = .discrete ∨ f = .millerMadow) (hkept : NoNamed kw) (ho : kwOr kw "offset" (.int 0) = .int 0) (hN : 0 < z.length)
    (hl : ∀ x ∈ cols, x.length = z.length) (hov : z.length ^ cols.length < 2 ^ 64) (hb : b.Valid) :
    LocalMean W (cols.map .ints) (some (.ints z)) m a kw z.length := by
  have h2 : 2 ≤ cols.length := by simpa using hk.2.2
  have hx := mapM_ints cols
  have hz : (PyData.ints z).toInts = some z := rfl
  have key : ∀ mm, ∃ g ls, discreteCMI cols (some (.arr1 z)) (some 0) b mm = .ok g ∧
      discreteCMILocal cols (some (.arr1 z)) (some 0) b mm = .ok ls ∧ ls.length = z.length ∧ mean ls = g := by
    intro mm
    obtain ⟨g, ls, q⟩ := C16_local_cmi_mean cols z hN h2 hl hov b hb mm
    have hr : condReduce mm (.arr1 z) = .ok z := rfl
    rw [discreteCMI_eq h2 hl hr (.inr rfl), discreteCMILocal_eq h2 hl hr (.inr rfl)] at q
    refine ⟨g, ls, ?_⟩
    rw [discreteCMI_eq h2 hl hr (.inl rfl), discreteCMILocal_eq h2 hl hr (.inl rfl)]
    exact q
  rcases hf with rfl | rfl
  · obtain ⟨p, e1, e2, hr, hopt⟩ := local_built hk h hkept (by simp [requiredKw])
    have g1 := getOpt (data := cols.map .ints) (c := some (.ints z)) hopt (n := "base") (d := W.b0) (by opt) h.base
    have g2 := getOpt (data := cols.map .ints) (c := some (.ints z)) hopt (n := "offset") (d := .int 0) (g := PyVal.toOptInt) (v := some 0) (by opt) (by rw [ho]; rfl)
    obtain ⟨g, ls, q1, q2, q3, q4⟩ := key false
    refine localMean_of e1 e2 (g := g) (ls := ls) ?_ ?_ q3 q4
    · simpa [Est.result, Est.cmi, g1, g2, hx, hz] using q1
    · simp [Est.locals, Est.cmiLocals, g1, g2, hx, hz, q1, q2, afterGlobal]
  · obtain ⟨p, e1, e2, hr, hopt⟩ := local_built hk h hkept (by simp [requiredKw])
    have g1 := getOpt (data := cols.map .ints) (c := some (.ints z)) hopt (n := "base") (d := W.b0) (by opt) h.base
    have g2 := getOpt (data := cols.map .ints) (c := some (.ints z)) hopt (n := "offset") (d := .int 0) (g := PyVal.toOptInt) (v := some 0) (by opt) (by rw [ho]; rfl)
    obtain ⟨g, ls, q1, q2, q3, q4⟩ := key true
    refine localMean_of e1 e2 (g := g) (ls := ls) ?_ ?_ q3 q4
    · simpa [Est.result, Est.cmi, g1, g2, hx, hz] using q1
    · simp [Est.locals, Est.cmiLocals, g1, g2, hx, hz, q1, q2, afterGlobal]

/-- **C84** Ordinal conditional mutual information of two series: one local value per window. -/
theorem C84_ordinal_cmi_mean (x y z : List ℝ) (hk : Asks W.lower m [.reals x, .reals y] (some (.reals z)) .cmi) (h : Call W .cmi .ordinal a kw b)
    (hkept : NoNamed kw) (ho : kwOr kw "offset" (.int 0) = .int 0) (hxy : x.length = y.length) (hyz : y.length = z.length) (d : Nat) (st : Bool)
    (h1 : kw "embedding_dim" = some (.int d)) (h3 : kwOr kw "stable" (.bool false) = .bool st)
    (hd : 2 ≤ d) (hn : d - 1 < x.length) (hov : x.length < 2 ^ 32) (hb : b.Std) :
    LocalMean W [.reals x, .reals y] (some (.reals z)) m a kw (x.length - (d - 1)) := by
  have hx : [PyData.reals x, .reals y].mapM PyData.toSeries = some [x, y] := rfl
  have hz : (PyData.reals z).toSeries = some z := rfl
  obtain ⟨p, e1, e2, hr, hopt⟩ := local_built hk h hkept (by simp [requiredKw])
  have g1 := getOpt (data := [.reals x, .reals y]) (c := some (.reals z)) hopt (n := "base") (d := W.b0) (by opt) h.base
  have g2 := getOpt (data := [.reals x, .reals y]) (c := some (.reals z)) hopt (n := "offset") (d := .int 0) (g := PyVal.toOptInt) (v := some 0) (by opt) (by rw [ho]; rfl)
  have g3 := getOpt (data := [.reals x, .reals y]) (c := some (.reals z)) hopt (n := "step_size") (d := .int 1) (g := PyVal.toArg) (v := .int 1) (by opt)
    (by simp [kwOr, hkept "step_size" (by simp [namedParams]), PyVal.toArg])
  have g4 := getOpt (data := [.reals x, .reals y]) (c := some (.reals z)) hopt (n := "stable") (d := .bool false) (g := PyVal.toBool) (v := st) (by opt) (by rw [h3]; rfl)
  have g5 := getOpt (data := [.reals x, .reals y]) (c := some (.reals z)) hopt (n := "embedding_dim") (d := .none) (g := PyVal.toArg) (v := .int d) (by opt) (by simp [kwOr, h1, PyVal.toArg])
  obtain ⟨g, ls, q1, q2, q3, q4⟩ := C56_cmi_local_mean W.quick x y z hxy hyz d 1 hd le_rfl (by simpa using hn) hov st b hb
  refine localMean_of e1 e2 (g := g) (ls := ls) ?_ ?_ (by simpa using q3) q4
  · simpa [Est.result, Est.cmi, g1, g2, hx, hz, Est.ord, g3, g4, g5] using q1
  · simpa [Est.locals, Est.cmiLocals, g1, g2, hx, hz, Est.ord, g3, g4, g5] using q2

/-! ## Transfer entropy -/

section
variable {l r s q d : Nat}

/-- the history parameters read by a transfer-entropy class -/
theorem get_te {p : Kw} (hh : History kw l r s) (hk : k = .te ∨ k = .cte) (ho : ∀ o ∈ optionalKw W.b0 ⟨k, f⟩, p o.1 = some (kwOr kw o.1 o.2)) :
    Est.get ⟨⟨k, f⟩, data, c, p⟩ "prop_time" PyVal.toOptArg = some (some (.int 0)) ∧
    Est.get ⟨⟨k, f⟩, data, c, p⟩ "offset" PyVal.toOptArg = some none ∧ Est.te ⟨⟨k, f⟩, data, c, p⟩ = some (teParams l r s) := by
  have g1 := getOpt (data := data) (c := c) ho (n := "src_hist_len") (d := .int 1) (by rcases hk with rfl | rfl <;> opt) hh.sh
  have g2 := getOpt (data := data) (c := c) ho (n := "dest_hist_len") (d := .int 1) (by rcases hk with rfl | rfl <;> opt) hh.dh
  have g3 := getOpt (data := data) (c := c) ho (n := "step_size") (d := .int 1) (by rcases hk with rfl | rfl <;> opt) hh.st
  refine ⟨getOpt ho (d := .int 0) (by rcases hk with rfl | rfl <;> opt) hh.u, getOpt ho (d := .none) (by rcases hk with rfl | rfl <;> opt) hh.o, ?_⟩
  simp [Est.te, g1, g2, g3, teParams]

/-- **C84** Plug-in and Miller–Madow transfer entropy: one local value per row of histories. -/
theorem C84_te_mean (x y : List Int) (hk : Asks W.lower m [.ints x, .ints y] none .te) (h : Call W .te f a kw b)
    (hf : f = .discrete ∨ f = .millerMadow) (hkept : kw "cond_hist_len" = none) (hh : History kw l r s) (hs : 0 < s) (hl : 0 < l) (hr : 0 < r)
    (hm : max r l * s < x.length) (hlen : x.length = y.length) (hov : y.length < 2 ^ 32) (hb : b.Valid) :
    LocalMean W [.ints x, .ints y] none m a kw (numRows y.length (max r l) s) := by
  rcases hf with rfl | rfl
  · obtain ⟨p, e1, e2, -, hopt⟩ := local_built hk h hkept (by simp [requiredKw])
    have g1 := getOpt (data := [.ints x, .ints y]) (c := none) hopt (n := "base") (d := W.b0) (by opt) h.base
    obtain ⟨g2, g3, g4⟩ := get_te (data := [.ints x, .ints y]) (c := none) hh (.inl rfl) hopt
    obtain ⟨g, ls, q1, q2, q3, q4⟩ := C24_local_te_mean x y l r s hs hl hr hm hlen hov b hb false {} lawful_none
    refine localMean_of e1 e2 (g := g) (ls := ls) ?_ ?_ q3 q4
    · simpa [Est.result, Est.teVal, g1, g2, g3, g4, Est.pair, PyData.toInts] using q1
    · simp [Est.locals, Est.teLocals, g1, g2, g3, g4, Est.pair, PyData.toInts, q1, q2, afterGlobal]
  · obtain ⟨p, e1, e2, -, hopt⟩ := local_built hk h hkept (by simp [requiredKw])
    have g1 := getOpt (data := [.ints x, .ints y]) (c := none) hopt (n := "base") (d := W.b0) (by opt) h.base
    obtain ⟨g2, g3, g4⟩ := get_te (data := [.ints x, .ints y]) (c := none) hh (.inl rfl) hopt
    obtain ⟨g, ls, q1, q2, q3, q4⟩ := C24_local_te_mean x y l r s hs hl hr hm hlen hov b hb true {} lawful_none
    refine localMean_of e1 e2 (g := g) (ls := ls) ?_ ?_ q3 q4
    · simpa [Est.result, Est.teVal, g1, g2, g3, g4, Est.pair, PyData.toInts] using q1
    · simp [Est.locals, Est.teLocals, g1, g2, g3, g4, Est.pair, PyData.toInts, q1, q2, afterGlobal]

/-- **C84** Ordinal transfer entropy. -/
theorem C84_ordinal_te_mean (x y : List ℝ) (hk : Asks W.lower m [.reals x, .reals y] none .te) (h : Call W .te .ordinal a kw b)
    (hkept : kw "cond_hist_len" = none) (hh : History kw l r s) (st : Bool) (h1 : kw "embedding_dim" = some (.int d))
    (h3 : kwOr kw "stable" (.bool false) = .bool st) (hd : 1 ≤ d) (hd' : d ≤ 20) (hs : 0 < s) (hl : 0 < l) (hr : 0 < r)
    (hn : (d - 1) * s + max r l * s < x.length) (hlen : x.length = y.length) (hov : x.length < 2 ^ 32) (hb : b.Valid) :
    LocalMean W [.reals x, .reals y] none m a kw (numRows (x.length - (d - 1) * s) (max r l) s) := by
  obtain ⟨p, e1, e2, hreq, hopt⟩ := local_built hk h hkept (by simp [requiredKw, h1])
  have g1 := getOpt (data := [.reals x, .reals y]) (c := none) hopt (n := "base") (d := W.b0) (by opt) h.base
  obtain ⟨g2, g3, g4⟩ := get_te (data := [.reals x, .reals y]) (c := none) hh (.inl rfl) hopt
  have g5 := getReq (data := [.reals x, .reals y]) (c := none) hreq (n := "embedding_dim") (g := PyVal.toArg) (v := .int d) (by simp [requiredKw]) h1 rfl
  have g6 := getOpt (data := [.reals x, .reals y]) (c := none) hopt (n := "stable") (d := .bool false) (g := PyVal.toBool) (v := st) (by opt) (by rw [h3]; rfl)
  obtain ⟨g, ls, q1, q2, q3, q4⟩ := C57_local_mean W.quick x y hlen d s l r hd hd' hs hl hr hn hov st b hb {} lawful_none
  refine localMean_of e1 e2 (g := g) (ls := ls) ?_ ?_ q3 q4
  · simpa [Est.result, Est.teVal, g1, g2, g3, g4, Est.pair, PyData.toSeries, Est.ordTe, g5, g6, ordTEParams] using q1
  · simpa [Est.locals, Est.teLocals, g1, g2, g3, g4, Est.pair, PyData.toSeries, Est.ordTe, g5, g6, ordTEParams] using q2

/-! ## Conditional transfer entropy -/

/-- **C84** Plug-in and Miller–Madow conditional transfer entropy. -/
theorem C84_cte_mean (x y z : List Int) (hk : Asks W.lower m [.ints x, .ints y] (some (.ints z)) .cte) (h : Call W .cte f a kw b)
    (hf : f = .discrete ∨ f = .millerMadow) (hh : History kw l r s) (hq : kwOr kw "cond_hist_len" (.int 1) = .int q) (hs : 0 < s) (hl : 0 < l)
    (hr : 0 < r) (hq0 : 0 < q) (hm : max (max r l) q * s < x.length) (hlen : x.length = y.length) (hlen2 : z.length = y.length)
    (hov : y.length < 2 ^ 32) (hb : b.Valid) :
    LocalMean W [.ints x, .ints y] (some (.ints z)) m a kw (numRows y.length (max (max r l) q) s) := by
  rcases hf with rfl | rfl
  · obtain ⟨p, e1, e2, -, hopt⟩ := local_built hk h trivial (by simp [requiredKw])
    have g1 := getOpt (data := [.ints x, .ints y]) (c := some (.ints z)) hopt (n := "base") (d := W.b0) (by opt) h.base
    obtain ⟨g2, g3, g4⟩ := get_te (data := [.ints x, .ints y]) (c := some (.ints z)) hh (.inr rfl) hopt
    have g5 := getOpt (data := [.ints x, .ints y]) (c := some (.ints z)) hopt (n := "cond_hist_len") (d := .int 1) (by opt) (condArg hq)
    obtain ⟨g, ls, q1, q2, q3, q4⟩ := C75_scalar_local_mean x y z l r q s hs hl hr hq0 hm hlen hlen2 hov b hb false
    refine localMean_of e1 e2 (g := g) (ls := ls) ?_ ?_ q3 q4
    · simpa [Est.result, Est.cteVal, g1, g2, g3, g4, g5, Est.pair, PyData.toInts] using q1
    · simp [Est.locals, Est.cteLocals, g1, g2, g3, g4, g5, Est.pair, PyData.toInts, q1, q2, afterGlobal]
  · obtain ⟨p, e1, e2, -, hopt⟩ := local_built hk h trivial (by simp [requiredKw])
    have g1 := getOpt (data := [.ints x, .ints y]) (c := some (.ints z)) hopt (n := "base") (d := W.b0) (by opt) h.base
    obtain ⟨g2, g3, g4⟩ := get_te (data := [.ints x, .ints y]) (c := some (.ints z)) hh (.inr rfl) hopt
    have g5 := getOpt (data := [.ints x, .ints y]) (c := some (.ints z)) hopt (n := "cond_hist_len") (d := .int 1) (by opt) (condArg hq)
    obtain ⟨g, ls, q1, q2, q3, q4⟩ := C75_scalar_local_mean x y z l r q s hs hl hr hq0 hm hlen hlen2 hov b hb true
    refine localMean_of e1 e2 (g := g) (ls := ls) ?_ ?_ q3 q4
    · simpa [Est.result, Est.cteVal, g1, g2, g3, g4, g5, Est.pair, PyData.toInts] using q1
    · simp [Est.locals, Est.cteLocals, g1, g2, g3, g4, g5, Est.pair, PyData.toInts, q1, q2, afterGlobal]

/-- **C84** Ordinal conditional transfer entropy. -/
theorem C84_ordinal_cte_mean (x y z : List ℝ) (hk : Asks W.lower m [.reals x, .reals y] (some (.reals z)) .cte) (h : Call W .cte .ordinal a kw b)
    (hh : History kw l r s) (hq : kwOr kw "cond_hist_len" (.int 1) = .int q) (st : Bool) (h1 : kw "embedding_dim" = some (.int d))
    (h3 : kwOr kw "stable" (.bool false) = .bool st) (hd : 1 ≤ d) (hd' : d ≤ 20) (hs : 0 < s) (hl : 0 < l) (hr : 0 < r) (hq0 : 0 < q)
    (hn : (d - 1) * s + max (max r l) q * s < x.length) (hlen : x.length = y.length) (hlen2 : z.length = y.length) (hov : x.length < 2 ^ 32)
    (hb : b.Valid) :
    LocalMean W [.reals x, .reals y] (some (.reals z)) m a kw (numRows (x.length - (d - 1) * s) (max (max r l) q) s) := by
  obtain ⟨p, e1, e2, hreq, hopt⟩ := local_built hk h trivial (by simp [requiredKw, h1])
  have g1 := getOpt (data := [.reals x, .reals y]) (c := some (.reals z)) hopt (n := "base") (d := W.b0) (by opt) h.base
  obtain ⟨g2, g3, g4⟩ := get_te (data := [.reals x, .reals y]) (c := some (.reals z)) hh (.inr rfl) hopt
  have g7 := getOpt (data := [.reals x, .reals y]) (c := some (.reals z)) hopt (n := "cond_hist_len") (d := .int 1) (by opt) (condArg hq)
  have g5 := getReq (data := [.reals x, .reals y]) (c := some (.reals z)) hreq (n := "embedding_dim") (g := PyVal.toArg) (v := .int d) (by simp [requiredKw]) h1 rfl
  have g6 := getOpt (data := [.reals x, .reals y]) (c := some (.reals z)) hopt (n := "stable") (d := .bool false) (g := PyVal.toBool) (v := st) (by opt) (by rw [h3]; rfl)
  obtain ⟨g, ls, q1, q2, q3, q4⟩ := C75_ordinal_local_mean W.quick x y z hlen hlen2 d s l r q hd hd' hs hl hr hq0 hn hov st b hb
  refine localMean_of e1 e2 (g := g) (ls := ls) ?_ ?_ q3 q4
  · simpa [Est.result, Est.cteVal, g1, g2, g3, g4, Est.pair, PyData.toSeries, Est.ordTe, g5, g6, g7, ordTEParams] using q1
  · simpa [Est.locals, Est.cteLocals, g1, g2, g3, g4, Est.pair, PyData.toSeries, Est.ordTe, g5, g6, g7, ordTEParams] using q2

end

end Verif
