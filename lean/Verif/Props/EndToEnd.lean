import Verif.Spec.EndToEnd
import Verif.Lemmas.EndToEndEntropy
import Verif.Props.Entropy
import Verif.Props.Joint
import Verif.Props.Divergence
import Verif.Props.Bias3
import Verif.Props.Ordinal2
import Verif.Props.Kernel3
import Verif.Props.KlEntropy2
import Verif.Props.RenyiTsallis2
import Verif.Props.Nsb2
import Verif.Props.Gauss

/-!
# C82: the public functions return the documented quantities (entropy)

Theorems about the public call itself: approach name, keyword arguments and data in, value out.

Concrete calls that meet the hypotheses are in `Props/EndToEndEx.lean`.
-/

namespace Verif

open Spec

variable {W : World} {a : PyName} {kw : Kw} {b : Base}

theorem dclass_arr1 (c : DClass) (b : Base) {xs : List Int} (h : xs ≠ []) : c.globalVal b [.arr1 xs] = c.simple b (mkData xs) := by
  simp only [DClass.globalVal, discreteHInit_arr1 h, bind, Except.bind, entropyDispatch]

/-- **C82** `im.entropy(x, approach=…)` of a sequence of integers is the published formula of the estimator named,
divided by the logarithm of the base that is given (or was configured), for the eight parameter-free discrete
estimators. -/
theorem C82_entropy (f : Fam) (hf : f ∈ simpleFams) (h : Call W .h f a kw b) (hb : b.Std) (xs : List Int) (hx : xs ≠ []) :
    imEntropy W [.ints xs] a .absent kw = .ok (entropyFormula f xs / b.ln) := by
  have hv : b.Valid := hb.valid
  have hm : [PyData.ints xs].mapM PyData.toEInput = some [.arr1 xs] := rfl
  simp only [simpleFams, List.mem_cons, List.not_mem_nil, or_false] at hf
  rcases hf with rfl | rfl | rfl | rfl | rfl | rfl | rfl | rfl
  · rw [(e2e_h_discrete h.name h.accepted h.base hm).1]
    exact C03_discrete_entropy_eq_shannon xs hx b hv
  · rw [(e2e_h_millerMadow h.name h.accepted h.base hm).1, dclass_arr1 _ b hx]
    exact (HEst.entropy_arr1 (millerMadowH b) hx).symm.trans (C19_mm_entropy xs hx b hv)
  · rw [(e2e_h_grassberger h.name h.accepted h.base hm).1, dclass_arr1 _ b hx]
    exact (HEst.entropy_arr1 (grassbergerH b) hx).symm.trans (C34_grassberger_value xs hx b hv)
  · rw [(e2e_h_chaoShen h.name h.accepted h.base hm).1, dclass_arr1 _ b hx]
    exact (HEst.entropy_arr1 (chaoShenH b) hx).symm.trans (C30_chao_shen_well_defined xs hx b hb).2.2.1
  · rw [(e2e_h_chaoWangJost h.name h.accepted h.base hm).1, dclass_arr1 _ b hx]
    exact (HEst.entropy_arr1 (chaoWangJostH b) hx).symm.trans (C31_chao_wang_jost_well_defined xs hx b hb).2.2.1
  · rw [(e2e_h_shrink h.name h.accepted h.base hm).1, dclass_arr1 _ b hx]
    obtain ⟨_, _, _, v, p, e, _, rfl, _⟩ := C32_shrinkage xs hx b hb
    exact (HEst.entropy_arr1 (shrinkH b) hx).symm.trans e
  · rw [(e2e_h_zhang h.name h.accepted h.base hm).1, dclass_arr1 _ b hx]
    exact (HEst.entropy_arr1 (zhangH b) hx).symm.trans (C35_zhang xs hx b hb).1
  · rw [(e2e_h_bonachela h.name h.accepted h.base hm).1, dclass_arr1 _ b hx]
    exact (HEst.entropy_arr1 (bonachelaH b) hx).symm.trans (C35_bonachela xs hx b hb).1

/-- **C82** `im.entropy((x, y, …))` of a tuple is the Shannon entropy of the joint rows. -/
theorem C82_joint_entropy (h : Call W .h .discrete a kw b) (hb : b.Valid) (cols : List (List Int)) (n : Nat) (hn : 0 < n)
    (hne : cols ≠ []) (hl : ∀ c ∈ cols, c.length = n) :
    imEntropy W [.intTup cols] a .absent kw = .ok (Spec.entropy (Spec.rows n cols) / b.ln) := by
  have hm : [PyData.intTup cols].mapM PyData.toEInput = some [.tup cols] := rfl
  rw [(e2e_h_discrete h.name h.accepted h.base hm).1]
  exact C08_joint_entropy_eq_rows cols n hn hne hl b hb

/-- **C82** `im.cross_entropy(p, q)` and `im.entropy(p, q)` are the plug-in cross-entropy. -/
theorem C82_cross_entropy (h : Call W .h .discrete a kw b) (hb : b.Valid) (xs ys : List Int) (hx : xs ≠ []) (hy : ys ≠ []) :
    imCrossEntropy W [.ints xs, .ints ys] a .absent kw = .ok (crossEntropy xs ys / b.ln) ∧
      imEntropy W [.ints xs, .ints ys] a .absent kw = .ok (crossEntropy xs ys / b.ln) := by
  have hm : [PyData.ints xs, PyData.ints ys].mapM PyData.toEInput = some [.arr1 xs, .arr1 ys] := rfl
  obtain ⟨h1, h2⟩ := e2e_h_discrete h.name h.accepted h.base hm
  rw [h1, h2 (by simp)]
  exact ⟨C36_cross_entropy_value xs ys hx hy b hb, C36_cross_entropy_value xs ys hx hy b hb⟩

/-- **C82** the Bayesian estimator with a numeric `alpha` or a named prior and the observed support. -/
theorem C82_bayes_entropy (h : Call W .h .bayes a kw b) (hb : b.Std) (xs : List Int) (hx : xs ≠ []) (al : AlphaArg) (c : ℝ)
    (hal : (kw "alpha").bind PyVal.toAlpha = some al) (hc : 0 ≤ c) (hp : PriorIs al xs.toFinset.card xs.length c)
    (hK : kwOr kw "K" .none = .none) :
    imEntropy W [.ints xs] a .absent kw = .ok (bayes xs xs.toFinset.card c / b.ln) := by
  have hm : [PyData.ints xs].mapM PyData.toEInput = some [.arr1 xs] := rfl
  rw [(e2e_h_bayes h.name h.accepted hal (K := none) (by rw [hK]; rfl) h.base hm).1, dclass_arr1 _ b hx]
  exact (HEst.entropy_arr1 (bayesH al none b) hx).symm.trans (C33_bayes_observed_support xs hx al c hc hp b hb).2.2.1

/-- **C82** the ANSB estimator: its formula if some symbol repeats, not a finite number otherwise. -/
theorem C82_ansb_entropy (h : Call W .h .ansb a kw b) (hb : b.Valid) (xs : List Int) (hx : xs ≠ [])
    (hK : kwOr kw "K" .none = .none) :
    (¬ xs.Nodup → imEntropy W [.ints xs] a .absent kw = .ok (ansb xs.length xs.toFinset.card / b.ln)) ∧
      (xs.Nodup → imEntropy W [.ints xs] a .absent kw = .error .nonFinite) := by
  have hm : [PyData.ints xs].mapM PyData.toEInput = some [.arr1 xs] := rfl
  have e := (e2e_h_ansb h.name h.accepted (K := none) (by rw [hK]; rfl) h.base hm).1.trans (dclass_arr1 _ b hx)
  rw [e]
  have := C55_ansb xs hx b hb
  rw [HEst.entropy_arr1 (ansbH none b) hx] at this
  exact this

/-- **C82** the NSB estimator. -/
theorem C82_nsb_entropy (h : Call W .h .nsb a kw b) (hb : b.Valid) (xs : List Int) (hx : xs ≠ []) (K : Option Nat)
    (hK : kwOr kw "K" .none = (match K with | none => .none | some k => .int k)) (hp : ∀ k, K = some k → 0 < k) :
    (Nsb.Defined xs K → imEntropy W [.ints xs] a .absent kw = .ok (Nsb.estimate xs (Nsb.support xs K) / b.ln)) ∧
      (¬ Nsb.Defined xs K → imEntropy W [.ints xs] a .absent kw = .error .nonFinite) := by
  have hm : [PyData.ints xs].mapM PyData.toEInput = some [.arr1 xs] := rfl
  have e := (e2e_h_nsb h.name h.accepted (K := K.map Int.ofNat) (by rw [hK]; cases K <;> rfl) h.base hm).1
  rw [e]
  exact C67_entropy xs hx W.find K hp b hb

/-- **C82** `im.entropy(x, approach="ordinal", embedding_dim=d)` is the permutation entropy. -/
theorem C82_ordinal_entropy (h : Call W .h .ordinal a kw b) (hb : b.Valid) (xs : List ℝ) (d s : Nat) (st : Bool)
    (h1 : kw "embedding_dim" = some (.int d)) (h2 : kwOr kw "step_size" (.int 1) = .int s)
    (h3 : kwOr kw "stable" (.bool false) = .bool st) (hd : 1 ≤ d) (hs : 1 ≤ s) (hn : (d - 1) * s < xs.length)
    (ht : TieFree xs d s) :
    imEntropy W [.reals xs] a .absent kw = .ok (permEntropy xs d s / b.ln) := by
  rw [(e2e_h_ordinal h.name h.accepted (d := .int d) (by rw [h1]; rfl) (s := .int s) (by rw [h2]; rfl) (st := st)
    (by rw [h3]; rfl) h.base).1]
  exact C28_ordinal_entropy_is_permutation_entropy W.quick xs d s hd hs hn ht st b hb

theorem toKArg_ofKVar (v : KVar) : (PyData.ofKVar v).toKArg = .arr v := by cases v <;> rfl

/-- **C82** `im.entropy(x, approach="kernel", bandwidth=h, kernel="box")` is the box-kernel entropy. -/
theorem C82_box_entropy (hc : Call W .h .kernel a kw b) (hb : b.Valid) (v : KVar) (hv : v.WF) (hN : 2 ≤ v.len) (h : ℝ) (hh : 0 < h)
    (w : Int) (h1 : kw "bandwidth" = some (.num h)) (h2 : kw "kernel" = some (.str "box"))
    (h3 : kwOr kw "workers" (.int 1) = .int w) :
    imEntropy W [.ofKVar v] a .absent kw = .ok (boxEntropy (assure2d v).rows (assure2d v).cols h / b.ln) := by
  rw [(e2e_h_kernel hc.name hc.accepted (h := .num h) (by rw [h1]; rfl) (kn := .box) (by rw [h2]; simp [PyVal.toKernel])
    (w := w) (by rw [h3]; rfl) hc.base).1]
  simp only [List.map_cons, List.map_nil, toKArg_ofKVar]
  exact C47_entropy_value v hv hN h hh _ b hb

/-- **C82** the same with `kernel="gaussian"`, one variable. -/
theorem C82_gaussian_entropy (hc : Call W .h .kernel a kw b) (hb : b.Valid) (he : EigOK W.eig) (xs : List ℝ) (hn : 2 ≤ xs.length)
    (hv : 0 < sampleVar xs) (h : ℝ) (hh : 0 < h) (h1 : kw "bandwidth" = some (.num h))
    (h2 : kw "kernel" = some (.str "gaussian")) (h3 : kwOr kw "workers" (.int 1) = .int 1) :
    imEntropy W [.reals xs] a .absent kw = .ok (mean (xs.map (fun x => - Real.log (gauss1 xs h x))) / b.ln) := by
  rw [(e2e_h_kernel hc.name hc.accepted (h := .num h) (by rw [h1]; rfl) (kn := gaussian W.eig)
    (by rw [h2]; simp [PyVal.toKernel]) (w := 1) (by rw [h3]; rfl) hc.base).1]
  exact C71_entropy_value W.eig he xs hn hv h hh _ (by simp [resolveWorkers]) b hb

theorem noise2_zero (W : World) (i : Nat) : W.noise2 0 i = none := by simp [World.noise2]

/-- **C82** `im.entropy(x, approach="metric", noise_level=0)` is the Kozachenko–Leonenko estimate, `k = 4` and the
maximum norm unless given. -/
theorem C82_metric_entropy (hc : Call W .h .metric a kw b) (hb : b.Valid) (v : KVar) (n : Nat) (H : v.Sample n) (p : PNorm)
    (hp : p.ok = true) (k : Nat) (hk : 0 < k) (hkn : k < n) (h1 : kwOr kw "k" (.int 4) = .int k)
    (h2 : kwOr kw "ksg_id" (.int 1) = .int 1) (h3 : kw "noise_level" = some (.int 0))
    (h4 : (kwOr kw "minkowski_p" .inf).toPNorm = some p) (ε : Nat → ℝ)
    (hε : ∀ t < n, IsKthDist n k t (dists p.order v.samples t) (ε t)) :
    imEntropy W [.ofKVar v] a .absent kw =
      .ok (mean ((List.range n).map (fun t => if ε t = 0 then 0 else klTerm p.order n k v.dim (ε t))) / b.ln) := by
  rw [(e2e_h_metric hc.name hc.accepted (k := .int k) (by rw [h1]; rfl) (i := 1) (by rw [h2]; rfl) (v := 0)
    (by simp [kwOr, h3, PyVal.toNum]) (mp := p) h4 hc.base).1]
  simp only [List.map_cons, List.map_nil, toKArg_ofKVar, noise2_zero, lt_irrefl, decide_false]
  exact C52_value v n H p hp k hk hkn b hb ε hε

/-- **C82** Rényi and Tsallis entropies, `k = 4` unless given. -/
theorem C82_renyi_entropy (hc : Call W .h .renyi a kw b) (hb : b.Valid) (v : KVar) (n : Nat) (H : v.Sample n)
    (k : Nat) (hk : 0 < k) (hkn : k < n) (h1 : kwOr kw "k" (.int 4) = .int k) (q : ℝ) (order : PyArg)
    (h2 : (kwOr kw "alpha" .none).toArg = some order) (ho : order.posNumber = some q) (hq : q < k + 1) (ρ : Nat → ℝ)
    (hρ : ∀ t < n, IsKthDist n k t (dists (some 2) v.samples t) (ρ t)) (hex : ∃ t < n, ρ t ≠ 0) :
    imEntropy W [.ofKVar v] a .absent kw = .ok (renyiNN (n - 1) k v.dim q ((List.range n).map ρ) / b.ln) := by
  rw [(e2e_h_renyi hc.name hc.accepted (k := .int k) (by rw [h1]; rfl) h2 hc.base).1]
  simp only [List.map_cons, List.map_nil, toKArg_ofKVar]
  exact C64_renyi v n H k hk hkn order q ho hq b hb ρ hρ hex

theorem C82_tsallis_entropy (hc : Call W .h .tsallis a kw b) (v : KVar) (n : Nat) (H : v.Sample n)
    (k : Nat) (hk : 0 < k) (hkn : k < n) (h1 : kwOr kw "k" (.int 4) = .int k) (q : ℝ) (order : PyArg)
    (h2 : (kwOr kw "q" .none).toArg = some order) (ho : order.posNumber = some q) (hq1 : q ≠ 1) (hq : q < k + 1) (ρ : Nat → ℝ)
    (hρ : ∀ t < n, IsKthDist n k t (dists (some 2) v.samples t) (ρ t)) (hex : ∃ t < n, ρ t ≠ 0) :
    imEntropy W [.ofKVar v] a .absent kw = .ok (tsallisNN (n - 1) k v.dim q ((List.range n).map ρ)) := by
  rw [(e2e_h_tsallis hc.name hc.accepted (k := .int k) (by rw [h1]; rfl) h2 hc.base).1]
  simp only [List.map_cons, List.map_nil, toKArg_ofKVar]
  exact C64_tsallis v n H k hk hkn order q ho hq1 hq b ρ hρ hex

end Verif
