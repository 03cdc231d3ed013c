import Verif.Lemmas.EndToEndDiv
import Verif.Props.EndToEnd2
import Verif.Props.EndToEnd4
import Verif.Props.OrdinalDiv
import Verif.Props.KernelDiv2
import Verif.Props.KernelDiv4
import Verif.Props.Noise

/-!
# C83: the composite measures return the documented quantities

Theorems about the public calls `im.kullback_leiber_divergence(p, q, approach=…, …)` and
`im.jensen_shannon_divergence(*data, approach=…, …)`: approach name, keyword arguments and data in, value out.

Concrete calls that meet the hypotheses are in `Props/EndToEndDivEx.lean`.
-/

namespace Verif

open Spec

variable {W : World} {a : PyName} {kw : Kw} {b : Base} {cond : CondKw PyData} {oj : Est → List PyData → Except Exc ℝ}

/-! ## Kullback–Leibler divergence -/

/-- **C83** For every approach, data and keyword arguments: the divergence is `im.cross_entropy(p, q)` minus
`im.entropy(p)`, with the same approach and keyword arguments.  The two estimators draw their noise independently. -/
theorem C83_kld_difference (W : World) (p q : PyData) (a : PyName) (cond : CondKw PyData) (kw : Kw) :
    imKld W p q (some a) cond kw =
      (do let hqp ← imCrossEntropy W [p, q] a cond kw
          let hp ← imEntropy (W.after 2) [p] a cond kw
          pure (hqp - hp)) := by
  have g1 := C46_cross_entropy_guard W.lower [p, q] a cond kw
  have g2 := C46_entropy_guard W.lower [p] a cond kw
  by_cases hr : Resolves W.lower .h a
  · obtain ⟨s, f, hs⟩ := hr
    have hn : Names W.lower .h a f := ⟨s, hs⟩
    have e2 : imEntropy (W.after 2) [p] a cond kw = globalOf (W.after 2) f [p] cond kw := by
      rw [imEntropy, show (W.after 2).lower = W.lower from rfl, guarded_ok g2 hn.resolves hn]
      exact runCall_globalOf _ _ _ _ _
    rw [imCrossEntropy, guarded_ok g1 ⟨hn.resolves, by simp⟩ hn, runCall_globalOf, e2, imKld, kldEntry_names hn]
    rfl
  · rw [imKld, kldEntry_unnamed hr]
    rcases g1 with ⟨h, _⟩ | ⟨_, e⟩
    · exact absurd h.1 hr
    · rw [imCrossEntropy, e]; rfl

/-- the entropy of an estimator that adds no noise does not depend on the random numbers -/
theorem result_after (n : Nat) {f : Fam} (hf : f ≠ .metric) (data : List PyData) (c : Option PyData) (p : Kw) :
    Est.result (W.after n) ⟨⟨.h, f⟩, data, c, p⟩ = Est.result W ⟨⟨.h, f⟩, data, c, p⟩ := by
  cases f <;> first | exact absurd rfl hf | rfl

/-- **C83** Only the nearest-neighbour estimator (`metric`) adds noise: for every other family the divergence is
`im.cross_entropy(p, q) − im.entropy(p)` of the same world. -/
theorem C83_kld_without_noise (p q : PyData) {f : Fam} (hn : Names W.lower .h a f) (hf : f ≠ .metric) :
    imKld W p q (some a) cond kw =
      (do let hqp ← imCrossEntropy W [p, q] a cond kw
          let hp ← imEntropy W [p] a cond kw
          pure (hqp - hp)) := by
  have g2 := C46_entropy_guard W.lower [p] a cond kw
  have e : imEntropy (W.after 2) [p] a cond kw = imEntropy W [p] a cond kw := by
    rw [imEntropy, imEntropy, show (W.after 2).lower = W.lower from rfl, guarded_ok g2 hn.resolves hn, runCall_globalOf,
      runCall_globalOf]
    simp only [globalOf, bind, Except.bind]
    rw [show buildEst (W.after 2) = buildEst W from rfl]
    cases hb : buildEst W { cls := ⟨.h, f⟩, data := [p], cond := cond, kw := kw } with
    | error _ => rfl
    | ok est =>
      obtain ⟨c, d, z, k⟩ := est
      simp only [buildEst, bind, Except.bind, pure, Except.pure] at hb
      split at hb
      · cases hb
      · cases hb; exact result_after 2 hf _ _ _
  rw [C83_kld_difference, e]

/-- the divergence from the two values -/
theorem kld_of_values {p q : PyData} {f : Fam} (hn : Names W.lower .h a f) (hf : f ≠ .metric) {r : Except Exc ℝ}
    (h : (do let hqp ← imCrossEntropy W [p, q] a cond kw
             let hp ← imEntropy W [p] a cond kw
             pure (hqp - hp)) = r) : imKld W p q (some a) cond kw = r := (C83_kld_without_noise p q hn hf).trans h

theorem kld_discrete_call {c : DClass} {f : Fam} (hn : Names W.lower .h a f) (hf : f ≠ .metric) {xs ys : List Int}
    (h1 : imCrossEntropy W [.ints xs, .ints ys] a .absent kw = c.globalVal b [.arr1 xs, .arr1 ys])
    (h2 : imEntropy W [.ints xs] a .absent kw = c.globalVal b [.arr1 xs]) :
    imKld W (.ints xs) (.ints ys) (some a) .absent kw = kld c b (.arr1 xs) (.arr1 ys) := by
  refine kld_of_values hn hf ?_
  rw [h1, h2]; rfl

/-- **C83** `im.kld(p, q, approach="discrete")` of integer sequences is the plug-in cross-entropy minus the plug-in
entropy.  If every value of `p` occurs in `q`, this is the Kullback–Leibler divergence of the empirical distributions: it
is never negative, and zero exactly for equal distributions. -/
theorem C83_kld (h : Call W .h .discrete a kw b) (hb : b.Std) (xs ys : List Int) (hx : xs ≠ []) (hy : ys ≠ []) :
    imKld W (.ints xs) (.ints ys) (some a) .absent kw = .ok ((crossEntropy xs ys - entropy xs) / b.ln) ∧
    ((∀ c ∈ xs, c ∈ ys) → ∃ v, imKld W (.ints xs) (.ints ys) (some a) .absent kw = .ok v ∧ v = kl xs ys / b.ln ∧ 0 ≤ v ∧
      (v = 0 ↔ SameDist xs ys)) := by
  have e : imKld W (.ints xs) (.ints ys) (some a) .absent kw = kld .discrete b (.arr1 xs) (.arr1 ys) :=
    kld_discrete_call h.name (by decide)
      ((e2e_h_discrete h.name h.accepted h.base (data := [.ints xs, .ints ys]) (xs := [.arr1 xs, .arr1 ys]) rfl).2 (by simp))
      (e2e_h_discrete h.name h.accepted h.base (data := [.ints xs]) (xs := [.arr1 xs]) rfl).1
  refine ⟨?_, fun hsub => by rw [e]; exact C36_kld_of_included_support xs ys hx hsub b hb⟩
  refine kld_of_values h.name (by decide) ?_
  rw [(C82_cross_entropy h hb.valid xs ys hx hy).1, C82_entropy .discrete (by simp [simpleFams]) h hb xs hx]
  simp only [bind, Except.bind, pure, Except.pure, entropyFormula, sub_div]

/-- **C83** A sample compared with a rearrangement of itself has divergence zero (plug-in and Miller–Madow). -/
theorem C83_kld_self {f : Fam} (hf : f = .discrete ∨ f = .millerMadow) (h : Call W .h f a kw b) (hb : b.Valid) (xs ys : List Int)
    (hx : xs ≠ []) (hp : xs.Perm ys) : imKld W (.ints xs) (.ints ys) (some a) .absent kw = .ok 0 := by
  rcases hf with rfl | rfl
  · rw [kld_discrete_call h.name (by decide)
      ((e2e_h_discrete h.name h.accepted h.base (data := [.ints xs, .ints ys]) (xs := [.arr1 xs, .arr1 ys]) rfl).2 (by simp))
      (e2e_h_discrete h.name h.accepted h.base (data := [.ints xs]) (xs := [.arr1 xs]) rfl).1]
    exact (C36_kld_self xs ys hx hp b hb).1
  · rw [kld_discrete_call h.name (by decide)
      ((e2e_h_millerMadow h.name h.accepted h.base (data := [.ints xs, .ints ys]) (xs := [.arr1 xs, .arr1 ys]) rfl).2 (by simp))
      (e2e_h_millerMadow h.name h.accepted h.base (data := [.ints xs]) (xs := [.arr1 xs]) rfl).1]
    exact (C36_kld_self xs ys hx hp b hb).2

/-- **C83** With a number as `alpha` the Bayesian divergence of samples whose values occur in `q` is not negative. -/
theorem C83_kld_bayes (h : Call W .h .bayes a kw b) (hb : b.Std) (xs ys : List Int) (hx : xs ≠ []) (hsub : ∀ c ∈ xs, c ∈ ys)
    (α : ℝ) (hα : 0 ≤ α) (h1 : kw "alpha" = some (.num α)) (h2 : kwOr kw "K" .none = .none) :
    ∃ v, imKld W (.ints xs) (.ints ys) (some a) .absent kw = .ok v ∧ 0 ≤ v := by
  have k1 : (kw "alpha").bind PyVal.toAlpha = some (.num α) := by rw [h1]; rfl
  have k2 : (kwOr kw "K" .none).toOptNat = some none := by rw [h2]; rfl
  rw [kld_discrete_call h.name (by decide)
      ((e2e_h_bayes h.name h.accepted k1 k2 h.base (data := [.ints xs, .ints ys]) (xs := [.arr1 xs, .arr1 ys]) rfl).2 (by simp))
      (e2e_h_bayes h.name h.accepted k1 k2 h.base (data := [.ints xs]) (xs := [.arr1 xs]) rfl).1]
  exact C36_bayes_kld_nonneg xs ys hx hsub α hα b hb

/-- **C83** The estimators without a cross-entropy raise TheoreticalInconsistencyError. -/
theorem C83_kld_inconsistent {f : Fam} (hf : f ∈ [Fam.grassberger, .chaoShen, .chaoWangJost, .shrink, .zhang, .bonachela])
    (h : Call W .h f a kw b) (xs ys : List Int) (hx : xs ≠ []) (hy : ys ≠ []) :
    imKld W (.ints xs) (.ints ys) (some a) .absent kw = .error .theoreticalInconsistency := by
  simp only [List.mem_cons, List.not_mem_nil, or_false] at hf
  rcases hf with rfl | rfl | rfl | rfl | rfl | rfl
  · rw [kld_discrete_call h.name (by decide)
      ((e2e_h_grassberger h.name h.accepted h.base (data := [.ints xs, .ints ys]) (xs := [.arr1 xs, .arr1 ys]) rfl).2 (by simp))
      (e2e_h_grassberger h.name h.accepted h.base (data := [.ints xs]) (xs := [.arr1 xs]) rfl).1]
    exact (C36_no_cross_entropy _ (by simp) xs ys hx hy b).2
  · rw [kld_discrete_call h.name (by decide)
      ((e2e_h_chaoShen h.name h.accepted h.base (data := [.ints xs, .ints ys]) (xs := [.arr1 xs, .arr1 ys]) rfl).2 (by simp))
      (e2e_h_chaoShen h.name h.accepted h.base (data := [.ints xs]) (xs := [.arr1 xs]) rfl).1]
    exact (C36_no_cross_entropy _ (by simp) xs ys hx hy b).2
  · rw [kld_discrete_call h.name (by decide)
      ((e2e_h_chaoWangJost h.name h.accepted h.base (data := [.ints xs, .ints ys]) (xs := [.arr1 xs, .arr1 ys]) rfl).2 (by simp))
      (e2e_h_chaoWangJost h.name h.accepted h.base (data := [.ints xs]) (xs := [.arr1 xs]) rfl).1]
    exact (C36_no_cross_entropy _ (by simp) xs ys hx hy b).2
  · rw [kld_discrete_call h.name (by decide)
      ((e2e_h_shrink h.name h.accepted h.base (data := [.ints xs, .ints ys]) (xs := [.arr1 xs, .arr1 ys]) rfl).2 (by simp))
      (e2e_h_shrink h.name h.accepted h.base (data := [.ints xs]) (xs := [.arr1 xs]) rfl).1]
    exact (C36_no_cross_entropy _ (by simp) xs ys hx hy b).2
  · rw [kld_discrete_call h.name (by decide)
      ((e2e_h_zhang h.name h.accepted h.base (data := [.ints xs, .ints ys]) (xs := [.arr1 xs, .arr1 ys]) rfl).2 (by simp))
      (e2e_h_zhang h.name h.accepted h.base (data := [.ints xs]) (xs := [.arr1 xs]) rfl).1]
    exact (C36_no_cross_entropy _ (by simp) xs ys hx hy b).2
  · rw [kld_discrete_call h.name (by decide)
      ((e2e_h_bonachela h.name h.accepted h.base (data := [.ints xs, .ints ys]) (xs := [.arr1 xs, .arr1 ys]) rfl).2 (by simp))
      (e2e_h_bonachela h.name h.accepted h.base (data := [.ints xs]) (xs := [.arr1 xs]) rfl).1]
    exact (C36_no_cross_entropy _ (by simp) xs ys hx hy b).2

/-- **C83** `approach="ordinal"`: the divergence of the distributions of ordinal patterns. -/
theorem C83_kld_ordinal (h : Call W .h .ordinal a kw b) (hb : b.Std) (xs ys : List ℝ) (d s : Nat) (st : Bool)
    (h1 : kw "embedding_dim" = some (.int d)) (h2 : kwOr kw "step_size" (.int 1) = .int s)
    (h3 : kwOr kw "stable" (.bool false) = .bool st) (hd : 1 ≤ d) (hd' : d ≤ 20) (hs : 1 ≤ s) (hx : (d - 1) * s < xs.length)
    (hy : (d - 1) * s < ys.length) (tx : TieFree xs d s) (ty : TieFree ys d s) :
    ∃ v, imKld W (.reals xs) (.reals ys) (some a) .absent kw = .ok v ∧
      v = (crossEntropy (patterns xs d s) (patterns ys d s) - entropy (patterns xs d s)) / b.ln ∧
      ((∀ c ∈ patterns xs d s, c ∈ patterns ys d s) →
        v = kl (patterns xs d s) (patterns ys d s) / b.ln ∧ 0 ≤ v ∧ (v = 0 ↔ SameDist (patterns xs d s) (patterns ys d s))) := by
  have k1 : (kw "embedding_dim").bind PyVal.toArg = some (.int d) := by rw [h1]; rfl
  have k2 : (kwOr kw "step_size" (.int 1)).toArg = some (.int s) := by rw [h2]; rfl
  have k3 : (kwOr kw "stable" (.bool false)).toBool = some st := by rw [h3]; rfl
  have e : imKld W (.reals xs) (.reals ys) (some a) .absent kw =
      ordKld W.quick xs ys { dim := .int d, step := .int s, stable := st } b := by
    refine kld_of_values h.name (by decide) ?_
    rw [(e2e_h_ordinal h.name h.accepted k1 k2 k3 h.base (data := [.reals xs, .reals ys])).2 (by simp),
      (e2e_h_ordinal h.name h.accepted k1 k2 k3 h.base (data := [.reals xs])).1]
    rfl
  rw [e]
  exact C68_kld W.quick xs ys d s hd hd' hs hx hy tx ty st b hb

/-- **C83** `approach="kernel"` with the box kernel: the mean logarithm of the ratio of the two box densities at the points
of `p`, if every point of `p` has a point of `q` in its box. -/
theorem C83_kld_box (hc : Call W .h .kernel a kw b) (hb : b.Valid) (p q : KVar) (hp : p.WF) (hq : q.WF) (hd : p.dim = q.dim)
    (hN : 2 ≤ p.len) (hM : 1 ≤ q.len) (h : ℝ) (hh : 0 < h) (hcov : ∀ x ∈ p.samples, ∃ y ∈ q.samples, InBox h x y) (w : Int)
    (h1 : kw "bandwidth" = some (.num h)) (h2 : kw "kernel" = some (.str "box")) (h3 : kwOr kw "workers" (.int 1) = .int w) :
    imKld W (.ofKVar p) (.ofKVar q) (some a) .absent kw = .ok (boxKl p.samples q.samples p.dim h / b.ln) := by
  have k1 : (kw "bandwidth").bind PyVal.toArg = some (.num h) := by rw [h1]; rfl
  have k2 : (kw "kernel").bind (PyVal.toKernel W.eig) = some .box := by rw [h2]; simp [PyVal.toKernel]
  have k3 : (kwOr kw "workers" (.int 1)).toInt = some w := by rw [h3]; rfl
  refine kld_of_values hc.name (by decide) ?_
  rw [(e2e_h_kernel hc.name hc.accepted k1 k2 k3 hc.base (data := [.ofKVar p, .ofKVar q])).2 (by simp),
    (e2e_h_kernel hc.name hc.accepted k1 k2 k3 hc.base (data := [.ofKVar p])).1]
  simp only [List.map_cons, List.map_nil, toKArg_ofKVar]
  exact C69_kernel_kld_value p q hp hq hd hN hM h hh hcov _ b hb

/-- **C83** `approach="metric"` with its noise: the nearest-neighbour cross-entropy of the perturbed `p` and `q` minus the
nearest-neighbour entropy of `p` with another perturbation. -/
theorem C83_kld_metric (hc : Call W .h .metric a kw b) (p q : KVar) (k : PyArg) (i : Int) (v : ℝ) (mp : PNorm)
    (h1 : (kwOr kw "k" (.int 4)).toArg = some k) (h2 : (kwOr kw "ksg_id" (.int 1)).toInt = some i)
    (h3 : (kwOr kw "noise_level" (.num (1 / 10 ^ 10))).toNum = some v) (h4 : (kwOr kw "minkowski_p" .inf).toPNorm = some mp) :
    imKld W (.ofKVar p) (.ofKVar q) (some a) .absent kw =
      (open Classical in klKld (.arr p) (.arr q) { k := k, ksgId := i, noiseNegative := decide (v < 0), p := mp }
        (W.noise2 v 0) (W.noise2 v 1) (W.noise2 v 2) b) := by
  have hone : ∀ (cfg : KlCfg) (e₁ e₂ : Option (Nat → Nat → ℝ)), klEntropy [.arr p] cfg e₁ e₂ b = klEntropy [.arr p] cfg e₁ none b :=
    fun cfg e₁ e₂ => by
      unfold klEntropy
      simp only [klInit]
      split_ifs <;> simp [bind, Except.bind]
  rw [C83_kld_difference, (e2e_h_metric hc.name hc.accepted h1 h2 h3 h4 hc.base (data := [.ofKVar p, .ofKVar q])).2 (by simp),
    (e2e_h_metric (W := W.after 2) hc.name hc.accepted h1 h2 h3 h4 hc.base (data := [.ofKVar p])).1]
  simp only [List.map_cons, List.map_nil, toKArg_ofKVar, hone _ _ ((W.after 2).noise2 v 1)]
  rfl

/-- **C83** `approach="metric", noise_level=0` of a sample with itself: never positive; zero only if every point has
its `k`-th and `k−1`-st neighbour at the same distance. -/
theorem C83_kld_metric_self (hc : Call W .h .metric a kw b) (hb : b.Std) (v : KVar) (n : Nat) (H : v.Sample n) (p : PNorm)
    (hp : p.ok = true) (k : Nat) (hk : 1 ≤ k) (hkn : k + 1 < n) (h1 : kwOr kw "k" (.int 4) = .int (k + 1 : Nat)) (i : Int)
    (hi : i = 1 ∨ i = 2) (h2 : kwOr kw "ksg_id" (.int 1) = .int i) (h3 : kw "noise_level" = some (.int 0))
    (h4 : (kwOr kw "minkowski_p" .inf).toPNorm = some p) (ε ε' : Nat → ℝ)
    (hε : ∀ t < n, IsKthDist n k t (dists p.order v.samples t) (ε t))
    (hε' : ∀ t < n, IsKthDist n (k + 1) t (dists p.order v.samples t) (ε' t)) (hpos : ∀ t < n, 0 < ε t) :
    ∃ D, imKld W (.ofKVar v) (.ofKVar v) (some a) .absent kw = .ok D ∧
      D = v.dim * mean ((List.range n).map (fun t => Real.log (ε t / ε' t))) / b.ln ∧ D ≤ 0 ∧ (D = 0 ↔ ∀ t < n, ε t = ε' t) := by
  rw [C83_kld_metric hc v v (.int (k + 1 : Nat)) i 0 p (by rw [h1]; rfl) (by rw [h2]; rfl) (by simp [kwOr, h3, PyVal.toNum]) h4]
  simp only [noise2_zero, lt_irrefl, decide_false]
  exact C69_metric_kld_self v n H p hp k hk hkn i hi b hb ε ε' hε hε' hpos

/-! ## Jensen–Shannon divergence -/

theorem mapM_einput_ints (xss : List (List Int)) : (xss.map PyData.ints).mapM PyData.toEInput = some (xss.map .arr1) := by
  induction xss with
  | nil => rfl
  | cons c cs ih => simp [List.mapM_cons, ih, PyData.toEInput]

theorem ints_arrayLike (xss : List (List Int)) : ∀ x ∈ xss.map PyData.ints, x.isArrayLike = true := by
  intro x hx
  obtain ⟨c, _, rfl⟩ := List.mem_map.1 hx
  rfl

theorem reals_arrayLike (xss : List (List ℝ)) : ∀ x ∈ xss.map PyData.reals, x.isArrayLike = true := by
  intro x hx
  obtain ⟨c, _, rfl⟩ := List.mem_map.1 hx
  rfl

theorem kvars_arrayLike (vs : List KVar) : ∀ x ∈ vs.map PyData.ofKVar, x.isArrayLike = true := by
  intro x hx
  obtain ⟨c, _, rfl⟩ := List.mem_map.1 hx
  cases c <;> rfl

/-- **C83** `im.jsd(x₁, …, x_m, approach="discrete")`: the entropy of the mixture of the empirical distributions minus the
mean of their entropies, between 0 and `log m`, and 0 exactly if all distributions are equal. -/
theorem C83_jsd (h : Call W .h .discrete a kw b) (hb : b.Std) (xss : List (List Int)) (hne : xss ≠ []) (hx : ∀ xs ∈ xss, xs ≠ []) :
    ∃ v, imJsd W oj (xss.map .ints) a .absent kw = .ok v ∧ v = jsd xss / b.ln ∧ 0 ≤ v ∧ v ≤ Real.log xss.length / b.ln ∧
      (v = 0 ↔ ∀ xs ∈ xss, ∀ ys ∈ xss, SameDist xs ys) := by
  rw [e2e_jsd_discrete h.name (by simpa using hne) (ints_arrayLike xss) h.accepted h.base (mapM_einput_ints xss)]
  obtain ⟨v, e, h0, h1, h2⟩ := C37_jsd_bounds xss hne hx b hb
  refine ⟨v, e, ?_, h0, h1, h2⟩
  rw [C37_jsd_value xss hne hx b hb.valid] at e
  exact (Except.ok.inj e).symm

/-- **C83** The same bounds for the shrinkage estimator and the Bayesian estimator with a number as `alpha`; equal samples
give 0. -/
theorem C83_jsd_shrink (h : Call W .h .shrink a kw b) (hb : b.Std) (xss : List (List Int)) (hne : xss ≠ [])
    (hx : ∀ xs ∈ xss, xs ≠ []) :
    ∃ v, imJsd W oj (xss.map .ints) a .absent kw = .ok v ∧ 0 ≤ v ∧ v ≤ Real.log xss.length / b.ln ∧
      ((∀ xs ∈ xss, ∀ ys ∈ xss, xs = ys) → v = 0) := by
  rw [e2e_jsd_shrink h.name (by simpa using hne) (ints_arrayLike xss) h.accepted h.base (mapM_einput_ints xss)]
  exact C37_jsd_shrink_bayes xss hne hx 0 le_rfl b hb _ (.inl rfl)

theorem C83_jsd_bayes (h : Call W .h .bayes a kw b) (hb : b.Std) (xss : List (List Int)) (hne : xss ≠ [])
    (hx : ∀ xs ∈ xss, xs ≠ []) (α : ℝ) (hα : 0 ≤ α) (h1 : kw "alpha" = some (.num α)) (h2 : kwOr kw "K" .none = .none) :
    ∃ v, imJsd W oj (xss.map .ints) a .absent kw = .ok v ∧ 0 ≤ v ∧ v ≤ Real.log xss.length / b.ln ∧
      ((∀ xs ∈ xss, ∀ ys ∈ xss, xs = ys) → v = 0) := by
  rw [e2e_jsd_bayes h.name (by simpa using hne) (ints_arrayLike xss) h.accepted (al := .num α) (K := none) (by rw [h1]; rfl)
    (by rw [h2]; rfl) h.base (mapM_einput_ints xss)]
  exact C37_jsd_shrink_bayes xss hne hx α hα b hb _ (.inr rfl)

/-- **C83** `approach="ordinal"`: the divergence of the distributions of ordinal patterns. -/
theorem C83_jsd_ordinal (h : Call W .h .ordinal a kw b) (hb : b.Std) (data : List (List ℝ)) (hne : data ≠ []) (d s : Nat) (st : Bool)
    (h1 : kw "embedding_dim" = some (.int d)) (h2 : kwOr kw "step_size" (.int 1) = .int s)
    (h3 : kwOr kw "stable" (.bool false) = .bool st) (hd : 2 ≤ d) (hs : 1 ≤ s)
    (hx : ∀ x ∈ data, (d - 1) * s + 1 < x.length) (ht : ∀ x ∈ data, TieFree x d s) :
    ∃ v, imJsd W oj (data.map .reals) a .absent kw = .ok v ∧
      v = jsd (data.map (fun x => patterns x d s)) / b.ln ∧ 0 ≤ v ∧ v ≤ Real.log data.length / b.ln ∧
      (v = 0 ↔ ∀ x ∈ data, ∀ y ∈ data, SameDist (patterns x d s) (patterns y d s)) := by
  rw [e2e_jsd_ordinal h.name (by simpa using hne) (reals_arrayLike data) h.accepted (d := .int d) (s := .int s) (st := st)
    (by rw [h1]; rfl) (by rw [h2]; rfl) (by rw [h3]; rfl) h.base (mapM_reals data)]
  exact C68_jsd W.quick data hne d s hd hs hx ht st b hb

theorem e2e_jsd_box (hc : Call W .h .kernel a kw b) (data : List KVar) (hne : data ≠ []) (h : ℝ) (w : Int)
    (h1 : kw "bandwidth" = some (.num h)) (h2 : kw "kernel" = some (.str "box")) (h3 : kwOr kw "workers" (.int 1) = .int w) :
    imJsd W oj (data.map .ofKVar) a .absent kw = kernelJsd data (boxCfg h (resolveWorkers W.cpu w)) b :=
  e2e_jsd_kernel hc.name (by simpa using hne) (kvars_arrayLike data) hc.accepted (h := .num h) (kn := .box) (w := w)
    (by rw [h1]; rfl) (by rw [h2]; simp [PyVal.toKernel]) (by rw [h3]; rfl) hc.base (mapM_kvars data)

/-- **C83** `approach="kernel"` with the box kernel: the box entropy of the pooled sample minus the mean of the box
entropies. -/
theorem C83_jsd_box (hc : Call W .h .kernel a kw b) (hb : b.Valid) (data : List KVar) (d : Nat) (H : DivArgs data d) (h : ℝ)
    (hh : 0 < h) (w : Int) (h1 : kw "bandwidth" = some (.num h)) (h2 : kw "kernel" = some (.str "box"))
    (h3 : kwOr kw "workers" (.int 1) = .int w) :
    imJsd W oj (data.map .ofKVar) a .absent kw =
      .ok ((boxEntropy (data.map KVar.samples).flatten d h - mean (data.map (fun v => boxEntropy v.samples d h))) / b.ln) := by
  rw [e2e_jsd_box hc data H.ne h w h1 h2 h3]
  exact C69_kernel_jsd_value data d H h hh _ b hb

/-- **C83** The order of the arguments does not matter: discrete estimators. -/
theorem C83_jsd_symmetric {f : Fam} (hf : f = .discrete ∨ f = .shrink ∨ f = .bayes) (h : Call W .h f a kw b) (hb : b.Valid)
    (xss yss : List (List Int)) (hp : xss.Perm yss) (hx : ∀ xs ∈ xss, xs ≠ [])
    (hα : f = .bayes → ∃ α : ℝ, 0 ≤ α ∧ kw "alpha" = some (.num α) ∧ kwOr kw "K" .none = .none) :
    imJsd W oj (xss.map .ints) a .absent kw = imJsd W oj (yss.map .ints) a .absent kw := by
  by_cases hne : xss = []
  · subst hne; rw [List.nil_perm.1 hp]
  have hne' : yss ≠ [] := fun h0 => hne (by subst h0; exact List.perm_nil.1 hp)
  have m1 : xss.map PyData.ints ≠ [] := by simpa using hne
  have m2 : yss.map PyData.ints ≠ [] := by simpa using hne'
  rcases hf with rfl | rfl | rfl
  · rw [e2e_jsd_discrete h.name m1 (ints_arrayLike _) h.accepted h.base (mapM_einput_ints _),
      e2e_jsd_discrete h.name m2 (ints_arrayLike _) h.accepted h.base (mapM_einput_ints _)]
    exact C37_jsd_symmetric xss yss hp hx 0 le_rfl b hb _ (.inl rfl)
  · rw [e2e_jsd_shrink h.name m1 (ints_arrayLike _) h.accepted h.base (mapM_einput_ints _),
      e2e_jsd_shrink h.name m2 (ints_arrayLike _) h.accepted h.base (mapM_einput_ints _)]
    exact C37_jsd_symmetric xss yss hp hx 0 le_rfl b hb _ (.inr (.inl rfl))
  · obtain ⟨α, h0, h1, h2⟩ := hα rfl
    have k1 : (kw "alpha").bind PyVal.toAlpha = some (.num α) := by rw [h1]; rfl
    have k2 : (kwOr kw "K" .none).toOptNat = some none := by rw [h2]; rfl
    rw [e2e_jsd_bayes h.name m1 (ints_arrayLike _) h.accepted k1 k2 h.base (mapM_einput_ints _),
      e2e_jsd_bayes h.name m2 (ints_arrayLike _) h.accepted k1 k2 h.base (mapM_einput_ints _)]
    exact C37_jsd_symmetric xss yss hp hx α h0 b hb _ (.inr (.inr rfl))

/-- **C83** The order of the arguments does not matter: box kernel. -/
theorem C83_jsd_box_symmetric (hc : Call W .h .kernel a kw b) (hb : b.Valid) (data data' : List KVar) (hp : data.Perm data') (d : Nat)
    (H : DivArgs data d) (h : ℝ) (hh : 0 < h) (w : Int) (h1 : kw "bandwidth" = some (.num h))
    (h2 : kw "kernel" = some (.str "box")) (h3 : kwOr kw "workers" (.int 1) = .int w) :
    imJsd W oj (data'.map .ofKVar) a .absent kw = imJsd W oj (data.map .ofKVar) a .absent kw := by
  have hne' : data' ≠ [] := fun h0 => H.ne (by subst h0; exact List.perm_nil.1 hp)
  rw [e2e_jsd_box hc data H.ne h w h1 h2 h3, e2e_jsd_box hc data' hne' h w h1 h2 h3]
  exact C69_kernel_jsd_symmetric data data' hp d H h hh _ b hb

/-! ## Errors -/

/-- **C83** ValueError: no approach, an unknown name; for the Jensen–Shannon divergence also an estimator other than the
five supported ones, and a tuple among the data — whatever the other arguments are. -/
theorem C83_value_error (W : World) (oj : Est → List PyData → Except Exc ℝ) (data : List PyData) (p q : PyData) (a : PyName)
    (cond : CondKw PyData) (kw : Kw) :
    imKld W p q none cond kw = .error .valueError ∧
    ((∀ f, ¬ Names W.lower .h a f) → imKld W p q (some a) cond kw = .error .valueError) ∧
    ((∀ f ∈ [Fam.discrete, .shrink, .bayes, .ordinal, .kernel], ¬ Names W.lower .h a f) →
      imJsd W oj data a cond kw = .error .valueError) ∧
    ((∃ cols, .intTup cols ∈ data) → imJsd W oj data a cond kw = .error .valueError) := by
  refine ⟨?_, fun h => ?_, fun h => ?_, fun h => ?_⟩
  · rw [imKld, (C69_kld_names W.lower none .discrete).2.2]; rfl
  · rw [imKld, kldEntry_unnamed (fun ⟨s, f, hs⟩ => h f ⟨s, hs⟩)]; rfl
  · rcases (C69_jsd_names W.lower a (data.map PyData.isArrayLike) .discrete).2 with e | ⟨g, e⟩
    · rw [imJsd, e]; rfl
    · obtain ⟨_, hg, hs⟩ := (C69_jsd_names W.lower a (data.map PyData.isArrayLike) g).1.1 e
      exact absurd hs (h g hg)
  · rcases (C69_jsd_names W.lower a (data.map PyData.isArrayLike) .discrete).2 with e | ⟨g, e⟩
    · rw [imJsd, e]; rfl
    · obtain ⟨ha, _⟩ := (C69_jsd_names W.lower a (data.map PyData.isArrayLike) g).1.1 e
      obtain ⟨cols, hc⟩ := h
      have := ha (PyData.isArrayLike (.intTup cols)) (List.mem_map.2 ⟨_, hc, rfl⟩)
      simp [PyData.isArrayLike] at this

theorem buildEst_type_error (data : List PyData) (f : Fam) (hk : kw "cond" = none)
    (h : (∃ r ∈ requiredKw .h f, kw r = none) ∨ ∃ k, kw k ≠ none ∧ k ∉ acceptedKw W.b0 ⟨.h, f⟩) :
    buildEst W { cls := ⟨.h, f⟩, data := data, cond := cond, kw := kw } = .error .typeError := by
  simp only [buildEst, bind, Except.bind]
  rw [C81_type_error W.b0 { cls := ⟨.h, f⟩, data := data, cond := cond, kw := kw } hk h]

/-- **C83** TypeError: a required keyword argument is missing, or one is given that the estimator does not take.  (The kernel
version of the Jensen–Shannon divergence first concatenates the arrays and raises ValueError if their shapes differ.) -/
theorem C83_type_error (oj : Est → List PyData → Except Exc ℝ) (data : List PyData) (p q : PyData) (f : Fam)
    (hn : Names W.lower .h a f) (hk : kw "cond" = none)
    (h : (∃ r ∈ requiredKw .h f, kw r = none) ∨ ∃ k, kw k ≠ none ∧ k ∉ acceptedKw W.b0 ⟨.h, f⟩) :
    imKld W p q (some a) cond kw = .error .typeError ∧
    (f ∈ [Fam.discrete, .shrink, .bayes, .ordinal] → data ≠ [] → (∀ x ∈ data, x.isArrayLike = true) →
      imJsd W oj data a cond kw = .error .typeError) ∧
    (f = .kernel → data ≠ [] → (∀ x ∈ data, ∃ xs, x = .reals xs) → imJsd W oj data a cond kw = .error .typeError) := by
  refine ⟨?_, fun hf hne hal => ?_, fun hf hne hal => ?_⟩
  · simp only [imKld, kldEntry_names hn, globalOf, bind, Except.bind]
    rw [buildEst_type_error _ f hk h]
  · cases data with
    | nil => exact absurd rfl hne
    | cons x t =>
      have hk' : f ≠ .kernel := by rintro rfl; simp at hf
      simp only [imJsd, jsdEntry_names hn (by simp only [List.mem_cons, List.not_mem_nil, or_false] at hf ⊢; tauto) (isArrayLike_all hal),
        bind, Except.bind, if_neg hk', pure, Except.pure]
      rw [buildEst_type_error _ f hk h]
  · subst hf
    have hal' : ∀ x ∈ data, x.isArrayLike = true := fun x hx => by obtain ⟨xs, rfl⟩ := hal x hx; rfl
    have hr : ∃ xss : List (List ℝ), data = xss.map .reals := by
      clear hne hal'
      induction data with
      | nil => exact ⟨[], rfl⟩
      | cons x t ih =>
        obtain ⟨xs, rfl⟩ := hal x (by simp)
        obtain ⟨r, rfl⟩ := ih (fun y hy => hal y (by simp [hy]))
        exact ⟨xs :: r, rfl⟩
    obtain ⟨xss, rfl⟩ := hr
    cases xss with
    | nil => exact absurd rfl hne
    | cons x t =>
      have hm : ((x :: t).map PyData.reals).mapM PyData.toKVar = some ((x :: t).map .one) := by
        have := mapM_kvars ((x :: t).map KVar.one)
        simpa [List.map_map, Function.comp_def, PyData.ofKVar] using this
      have hp : jsdPool ((x :: t).map PyData.reals) = .ok () := by
        have hj : (t.map KVar.one).mapM joinOne = .ok t := by
          rw [mapM_ok (g := fun v => match v with | .one ys => ys | .two _ => []) _ (by
            intro v hv; obtain ⟨ys, _, rfl⟩ := List.mem_map.1 hv; rfl)]
          simp [List.map_map, Function.comp_def]
        rw [jsdPool, hm]
        simp only [concatVars, List.map_cons, hj, bind, Except.bind, pure, Except.pure, Except.map]
      rw [List.map_cons] at hp hal' ⊢
      simp only [imJsd, jsdEntry_names hn (by simp) (isArrayLike_all hal'), bind, Except.bind, if_true, hp]
      rw [buildEst_type_error _ _ hk h]

/-- **C83** Without data the Jensen–Shannon divergence raises ZeroDivisionError (kernel: ValueError), whatever the keyword
arguments. -/
theorem C83_jsd_no_data (oj : Est → List PyData → Except Exc ℝ) {f : Fam} (hf : f ∈ [Fam.discrete, .shrink, .bayes, .ordinal, .kernel])
    (hn : Names W.lower .h a f) :
    imJsd W oj [] a cond kw = .error (if f = .kernel then .valueError else .zeroDivisionError) := by
  simp only [imJsd, List.map_nil, jsdEntry_names hn hf (al := []) (by simp), bind, Except.bind]

/-- **C83** Spelling: all names of one estimator, in upper or lower case, give the same value. -/
theorem C83_spelling (oj : Est → List PyData → Except Exc ℝ) (data : List PyData) (p q : PyData) (a a' : PyName) (f : Fam)
    (h : Names W.lower .h a f) (h' : Names W.lower .h a' f) :
    imKld W p q (some a) cond kw = imKld W p q (some a') cond kw ∧ imJsd W oj data a cond kw = imJsd W oj data a' cond kw := by
  have e : ∀ al, jsdEntry W.lower a al = jsdEntry W.lower a' al := by
    intro al
    have key : ∀ (a a' : PyName), Names W.lower .h a f → Names W.lower .h a' f → ∀ g, jsdEntry W.lower a al = .ok g →
        jsdEntry W.lower a' al = .ok g := by
      intro a a' h h' g hg
      obtain ⟨h1, h2, h3⟩ := (C69_jsd_names W.lower a al g).1.1 hg
      obtain rfl : f = g := h.unique h3
      exact (C69_jsd_names W.lower a' al f).1.2 ⟨h1, h2, h'⟩
    rcases (C69_jsd_names W.lower a al f).2 with e1 | ⟨g, e1⟩
    · rcases (C69_jsd_names W.lower a' al f).2 with e2 | ⟨g', e2⟩
      · rw [e1, e2]
      · have := key a' a h' h _ e2; rw [e1] at this; cases this
    · rw [e1, key a a' h h' _ e1]
  refine ⟨?_, ?_⟩
  · simp only [imKld, kldEntry_names h, kldEntry_names h']
  · simp only [imJsd, e]

end Verif
