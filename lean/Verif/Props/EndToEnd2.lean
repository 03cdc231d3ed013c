import Verif.Props.EndToEnd
import Verif.Lemmas.EndToEndMI
import Verif.Lemmas.EndToEndCMI
import Verif.Props.Complete
import Verif.Props.BiasMI3
import Verif.Props.OrdinalMI2
import Verif.Props.KernelMI2
import Verif.Props.KernelCMI
import Verif.Props.KsgCMI2
import Verif.Props.ExpMI2
import Verif.Props.Gauss7

/-!
# C82: the public functions return the documented quantities (mutual information, conditional mutual information)

Concrete calls that meet the hypotheses are in `Props/EndToEndEx.lean`.
-/

namespace Verif

open Spec

variable {W : World} {a : PyName} {kw : Kw} {b : Base} {cond : CondKw PyData}

theorem mapM_ints (cols : List (List Int)) : (cols.map PyData.ints).mapM PyData.toInts = some cols := by
  induction cols with
  | nil => rfl
  | cons c cs ih => simp [List.mapM_cons, ih, PyData.toInts]

theorem mapM_reals (cols : List (List ℝ)) : (cols.map PyData.reals).mapM PyData.toSeries = some cols := by
  induction cols with
  | nil => rfl
  | cons c cs ih => simp [List.mapM_cons, ih, PyData.toSeries]

theorem toKVar_ofKVar (v : KVar) : (PyData.ofKVar v).toKVar = some v := by cases v <;> rfl

theorem mapM_kvars (vs : List KVar) : (vs.map PyData.ofKVar).mapM PyData.toKVar = some vs := by
  induction vs with
  | nil => rfl
  | cons c cs ih => simp [List.mapM_cons, ih, toKVar_ofKVar]

/-- **C82** `im.mutual_information(x, y, …)` of integer sequences: the total correlation of the variables (for two variables:
the Shannon mutual information), except that with three or more variables of which one is constant the value is 0. -/
theorem C82_mi (h : Call W .mi .discrete a kw b) (hb : b.Std) (hc : cond.isVal = false) (ho : kwOr kw "offset" (.int 0) = .int 0)
    (cols : List (List Int)) (N : Nat) (hN : 0 < N) (h2 : 2 ≤ cols.length) (hl : ∀ c ∈ cols, c.length = N)
    (hov : N ^ cols.length < 2 ^ 64) :
    imMI W (cols.map .ints) a cond kw =
      .ok (open Classical in if 3 ≤ cols.length ∧ ∃ c ∈ cols, IsConst c then 0 else Spec.totalCorrelation N cols / b.ln) := by
  rw [e2e_mi_discrete hc h.name (by simpa using h2) h.accepted (o := some 0) (by rw [ho]; rfl) h.base (mapM_ints cols)]
  obtain ⟨v, e, rfl, _⟩ := C13_total_correlation_iff cols N hN h2 hl hov b hb
  rw [e]

/-- **C82** two variables: `I(X;Y) = Σ p(x,y) log (p(x,y) / (p(x) p(y)))`. -/
theorem C82_mi_two (h : Call W .mi .discrete a kw b) (hb : b.Std) (hc : cond.isVal = false)
    (ho : kwOr kw "offset" (.int 0) = .int 0) (xs ys : List Int) (hl : xs.length = ys.length) (hx : xs ≠ [])
    (hov : xs.length < 2 ^ 32) :
    imMI W [.ints xs, .ints ys] a cond kw = .ok (Spec.mi xs ys / b.ln) := by
  rw [e2e_mi_discrete hc h.name (by simp) h.accepted (o := some 0) (by rw [ho]; rfl) h.base (show [PyData.ints xs, PyData.ints ys].mapM PyData.toInts = some [xs, ys] from rfl)]
  exact C11_mi_is_textbook xs ys hl hx hov b hb

/-- **C82** with `offset=o` the estimator pairs `x[t]` with `y[t + o]` (`x[t - o]` with `y[t]` for negative `o`). -/
theorem C82_mi_offset (h : Call W .mi .discrete a kw b) (hb : b.Std) (hc : cond.isVal = false) (o : Int)
    (ho : kwOr kw "offset" (.int 0) = .int o) (xs ys : List Int) (hl : xs.length = ys.length) (hx : o.natAbs < xs.length)
    (hov : xs.length < 2 ^ 32) :
    ∃ xs' ys', xs'.length = xs.length - o.natAbs ∧ ys'.length = xs.length - o.natAbs ∧
      (∀ t, t < xs.length - o.natAbs →
        (0 ≤ o → xs'[t]? = xs[t]? ∧ ys'[t]? = ys[t + o.natAbs]?) ∧
        (o < 0 → xs'[t]? = xs[t + o.natAbs]? ∧ ys'[t]? = ys[t]?)) ∧
      imMI W [.ints xs, .ints ys] a cond kw = .ok (Spec.mi xs' ys' / b.ln) := by
  obtain ⟨xs', ys', h1, h2, h3, h4⟩ := C25_mi_offset_pairs xs ys hl o
  refine ⟨xs', ys', h2, h3, h4, ?_⟩
  rw [e2e_mi_discrete hc h.name (by simp) h.accepted (o := some o) (by rw [ho]; rfl) h.base (show [PyData.ints xs, PyData.ints ys].mapM PyData.toInts = some [xs, ys] from rfl)]
  have hne : xs' ≠ [] := by
    intro e
    rw [e] at h2
    simp at h2
    omega
  rw [← C11_mi_is_textbook xs' ys' (h2.trans h3.symm) hne (by omega) b hb]
  have h0 : miInit [xs', ys'] (some 0) = .ok [xs', ys'] := miInit_ok (N := xs'.length) (by simp) (by simp [h2, h3])
  simp only [discreteMI, h1, h0, bind, Except.bind]

theorem ok_of_mapM_map {α β : Type} {f : α → Except Exc β} {g : α → β} {l : List α} {r : List β}
    (h : ∀ x ∈ l, f x = .ok (g x)) (e : l.mapM f = .ok r) : r = l.map g := by
  rw [mapM_ok _ h] at e
  exact (Except.ok.inj e).symm

/-- **C82** Miller–Madow: the Miller–Madow entropies of the variables minus the one of the rows (with the same exception for
constant variables). -/
theorem C82_mi_miller_madow (h : Call W .mi .millerMadow a kw b) (hb : b.Std) (hc : cond.isVal = false)
    (ho : kwOr kw "offset" (.int 0) = .int 0) (cols : List (List Int)) (N : Nat) (hN : 0 < N) (h2 : 2 ≤ cols.length)
    (hl : ∀ c ∈ cols, c.length = N) (hov : N ^ cols.length < 2 ^ 64) :
    imMI W (cols.map .ints) a cond kw = .ok (open Classical in if 3 ≤ cols.length ∧ ∃ c ∈ cols, IsConst c then 0 else
      ((cols.map millerMadow).sum - millerMadow (rows N cols)) / b.ln) := by
  rw [e2e_mi_millerMadow hc h.name (by simpa using h2) h.accepted (o := some 0) (by rw [ho]; rfl) h.base (mapM_ints cols)]
  obtain ⟨hs, hj, e1, e2, e3⟩ := C19_mm_mi_complete cols N hN h2 hl hov b hb
  have hne : ∀ c ∈ cols, c ≠ [] := fun c hc h0 => by have := hl c hc; rw [h0] at this; simp at this; omega
  have e1' := ok_of_mapM_map (g := fun c => millerMadow c / b.ln) (fun c hcm => (HEst.entropy_arr1 _ (hne c hcm)).trans
        (mmSimple_ok c hb.valid)) e1
  rw [mm_tup hN (by rintro rfl; simp at h2) hl hb.valid] at e2
  rw [e3, e1', ← Except.ok.inj e2, sub_div, bias_sum_div_map]

/-- **C82** the six parameter-free bias-corrected estimators: `Σᵢ H(Xᵢ) − H(X₁,…,Xₙ)` of the method. -/
theorem C82_mi_bias {f : Fam} {m : Method} (hf : FamMethod f m) (h : Call W .mi f a kw b) (hb : b.Valid)
    (hc : cond.isVal = false) (hp : Plain kw) (cols : List (List Int)) (N : Nat) (hN : 0 < N) (h2 : 2 ≤ cols.length)
    (hl : ∀ c ∈ cols, c.length = N) :
    imMI W (cols.map .ints) a cond kw = .ok (((cols.map m.value).sum - m.value (rows N cols)) / b.ln) := by
  have h2' : 2 ≤ (cols.map PyData.ints).length := by simpa using h2
  have hn : (kwOr kw "normalize" (.bool false)).toBool = some false := by rw [hp.normalize]; rfl
  have ho : (kwOr kw "offset" (.int 0)).toOptInt = some (some 0) := by rw [hp.offset]; rfl
  cases hf with
  | grassberger =>
    rw [e2e_mi_grassberger hc h.name h2' h.accepted hn ho h.base (mapM_ints cols)]
    exact (C66_mi _ _ .grassberger cols N hN h2 hl b hb).1 trivial
  | chaoShen =>
    rw [e2e_mi_chaoShen hc h.name h2' h.accepted hn ho h.base (mapM_ints cols)]
    exact (C66_mi _ _ .chaoShen cols N hN h2 hl b hb).1 trivial
  | chaoWangJost =>
    rw [e2e_mi_chaoWangJost hc h.name h2' h.accepted hn ho h.base (mapM_ints cols)]
    exact (C66_mi _ _ .chaoWangJost cols N hN h2 hl b hb).1 trivial
  | shrink =>
    rw [e2e_mi_shrink hc h.name h2' h.accepted hn ho h.base (mapM_ints cols)]
    exact (C66_mi _ _ .shrink cols N hN h2 hl b hb).1 trivial
  | zhang =>
    rw [e2e_mi_zhang hc h.name h2' h.accepted hn ho h.base (mapM_ints cols)]
    exact (C66_mi _ _ .zhang cols N hN h2 hl b hb).1 trivial
  | bonachela =>
    rw [e2e_mi_bonachela hc h.name h2' h.accepted hn ho h.base (mapM_ints cols)]
    exact (C66_mi _ _ .bonachela cols N hN h2 hl b hb).1 trivial

/-- **C82** the Bayesian estimator. -/
theorem C82_mi_bayes (al : AlphaArg) (K : Option PyArg) {m : Method} (hm : (BiasClass.bayes al K).Means m)
    (h : Call W .mi .bayes a kw b) (hb : b.Valid) (hc : cond.isVal = false) (hp : Plain kw)
    (h1 : (kw "alpha").bind PyVal.toAlpha = some al) (h3 : (kwOr kw "K" .none).toOptArg = some K)
    (cols : List (List Int)) (N : Nat) (hN : 0 < N) (h2 : 2 ≤ cols.length) (hl : ∀ c ∈ cols, c.length = N) :
    imMI W (cols.map .ints) a cond kw = .ok (((cols.map m.value).sum - m.value (rows N cols)) / b.ln) := by
  rw [e2e_mi_bayes hc h.name (by simpa using h2) h.accepted h1 h3 (by rw [hp.normalize]; rfl) (o := some 0)
    (by rw [hp.offset]; rfl) h.base (mapM_ints cols)]
  refine (C66_mi _ _ hm cols N hN h2 hl b hb).1 ?_
  cases hm <;> trivial

/-- **C82** ANSB: finite exactly if some joint row repeats. -/
theorem C82_mi_ansb (h : Call W .mi .ansb a kw b) (hb : b.Valid) (hc : cond.isVal = false) (hp : Plain kw) (u : ℝ) (hu : 0 ≤ u)
    (h1 : (kwOr kw "undersampled" (.num (1 / 10))).toNum = some u)
    (cols : List (List Int)) (N : Nat) (hN : 0 < N) (h2 : 2 ≤ cols.length) (hl : ∀ c ∈ cols, c.length = N) :
    (¬ (rows N cols).Nodup → imMI W (cols.map .ints) a cond kw =
      .ok (((cols.map Method.ansb.value).sum - Method.ansb.value (rows N cols)) / b.ln)) ∧
    ((rows N cols).Nodup → imMI W (cols.map .ints) a cond kw = .error .nonFinite) := by
  rw [e2e_mi_ansb hc h.name (by simpa using h2) h.accepted h1 (by rw [hp.normalize]; rfl) (o := some 0)
    (by rw [hp.offset]; rfl) h.base (mapM_ints cols)]
  have := C66_mi _ _ (.ansb hu) cols N hN h2 hl b hb
  exact ⟨this.1, fun hn => this.2 (not_not.2 hn)⟩

/-- **C82** NSB. -/
theorem C82_mi_nsb (h : Call W .mi .nsb a kw b) (hb : b.Valid) (hc : cond.isVal = false) (hp : Plain kw) (K : Option Nat)
    (hK : kwOr kw "K" .none = (match K with | none => .none | some k => .int k)) (hK0 : ∀ k, K = some k → 0 < k)
    (cols : List (List Int)) (N : Nat) (hN : 0 < N) (h2 : 2 ≤ cols.length) (hl : ∀ c ∈ cols, c.length = N) :
    ((∀ v ∈ cols, Nsb.Defined v K) ∧ Nsb.Defined (rows N cols) K → imMI W (cols.map .ints) a cond kw =
      .ok (((cols.map (fun v => Nsb.value v K)).sum - Nsb.value (rows N cols) K) / b.ln)) ∧
    (¬ ((∀ v ∈ cols, Nsb.Defined v K) ∧ Nsb.Defined (rows N cols) K) →
      imMI W (cols.map .ints) a cond kw = .error .nonFinite) := by
  rw [e2e_mi_nsb hc h.name (by simpa using h2) h.accepted (K := nsbArg K) (by rw [hK]; cases K <;> rfl)
    (by rw [hp.normalize]; rfl) (o := some 0) (by rw [hp.offset]; rfl) h.base (mapM_ints cols)]
  exact C67_mi W.find K hK0 cols N hN h2 hl b hb

/-- **C82** ordinal: the mutual information of the ordinal patterns. -/
theorem C82_mi_ordinal (h : Call W .mi .ordinal a kw b) (hb : b.Std) (hc : cond.isVal = false)
    (ho : kwOr kw "offset" (.int 0) = .int 0) (x y : List ℝ) (d s : Nat) (st : Bool)
    (h1 : kwOr kw "embedding_dim" .none = .int d) (h2 : kwOr kw "step_size" (.int 1) = .int s)
    (h3 : kwOr kw "stable" (.bool false) = .bool st) (hd : 1 ≤ d) (hs : 1 ≤ s) (hxy : x.length = y.length)
    (hn : (d - 1) * s < x.length) (hov : x.length < 2 ^ 32) (htx : TieFree x d s) (hty : TieFree y d s) :
    imMI W [.reals x, .reals y] a cond kw = .ok (Spec.mi (ordPatterns x d s) (ordPatterns y d s) / b.ln) := by
  rw [e2e_mi_ordinal hc h.name (by simp) h.accepted (d := .int d) (by rw [h1]; rfl) (s := .int s) (by rw [h2]; rfl) (st := st)
    (by rw [h3]; rfl) (o := some 0) (by rw [ho]; rfl) h.base (show [PyData.reals x, PyData.reals y].mapM PyData.toSeries = some [x, y] from rfl)]
  exact C56_ordinal_mi_is_textbook W.quick x y hxy d s hd hs hn hov st htx hty b hb

/-- **C82** box kernel. -/
theorem C82_mi_box (hcl : Call W .mi .kernel a kw b) (hb : b.Valid) (hc : cond.isVal = false) (hp : Plain kw) (data : List KVar)
    (n : Nat) (H : MIArgs data n) (h : ℝ) (hh : 0 < h) (w : Int) (h1 : kwOr kw "bandwidth" .none = .num h)
    (h2 : kwOr kw "kernel" .none = .str "box") (h3 : kwOr kw "workers" (.int 1) = .int w) :
    imMI W (data.map .ofKVar) a cond kw = .ok (boxMI n h (data.map KVar.samples) / b.ln) := by
  rw [e2e_mi_kernel hc hcl.name (by simpa using H.two) hcl.accepted (h := .num h) (by rw [h1]; rfl) (kn := .box)
    (by rw [h2]; simp [PyVal.toKernel]) (w := w) (by rw [h3]; rfl) (nm := false) (by rw [hp.normalize]; rfl) (o := some 0)
    (by rw [hp.offset]; rfl) hcl.base (mapM_kvars data)]
  exact C59_value data n H h hh _ b hb

/-- **C82** Gaussian kernel, one-dimensional variables. -/
theorem C82_mi_gaussian {m n : Nat} (hcl : Call W .mi .kernel a kw b) (hb : b.Valid) (hc : cond.isVal = false) (hp : Plain kw)
    (he : EigOK W.eig) (X : Fin m → List ℝ) (hm : 2 ≤ m) (hn : 2 ≤ n) (hX : ∀ j, (X j).length = n)
    (hs : Spread X) (h : ℝ) (hh : 0 < h) (h1 : kwOr kw "bandwidth" .none = .num h)
    (h2 : kwOr kw "kernel" .none = .str "gaussian") (h3 : kwOr kw "workers" (.int 1) = .int 1) :
    imMI W (List.ofFn (fun j => PyData.reals (X j))) a cond kw = .ok (gaussMI n X h / b.ln) := by
  have e : List.ofFn (fun j => PyData.reals (X j)) = (List.ofFn (fun j => KVar.one (X j))).map .ofKVar := by
    rw [List.map_ofFn]; rfl
  rw [e, e2e_mi_kernel hc hcl.name (by simpa using hm) hcl.accepted (h := .num h) (by rw [h1]; rfl) (kn := gaussian W.eig)
    (by rw [h2]; simp [PyVal.toKernel]) (w := 1) (by rw [h3]; rfl) (nm := false) (by rw [hp.normalize]; rfl) (o := some 0)
    (by rw [hp.offset]; rfl) hcl.base (mapM_kvars _)]
  exact C71_mi_value W.eig he X hm hn hX hs h hh _ (by simp [resolveWorkers]) b hb

theorem noise2_none (W : World) : W.noise2 0 = noNoise := by funext i; exact noise2_zero W i

theorem noiseSum_zero (W : World) (i n : Nat) : W.noiseSum 0 i n = none := by simp [World.noiseSum]

theorem toNoise_zero : (PyVal.int 0).toNoise = some 0 := by simp [PyVal.toNoise, PyVal.toNum]

/-- **C82** the Kraskov–Stögbauer–Grassberger estimators, without noise. -/
theorem C82_mi_metric (hcl : Call W .mi .metric a kw b) (hb : b.Valid) (hc : cond.isVal = false) (hp : Plain kw)
    (h0 : kw "noise_level" = some (.int 0)) (data : List KVar) (n : Nat) (H : MIArgs data n) (p : PNorm) (hpn : p.ok = true) (k : Nat)
    (hk : 0 < k) (hkn : k < n) (h1 : kwOr kw "k" (.int 4) = .int k) (h2 : (kwOr kw "minkowski_p" .inf).toPNorm = some p)
    (ε : Nat → ℝ) (hε : ∀ t < n, IsKthDist n k t (jointDists p.order (data.map KVar.samples) t) (ε t)) :
    (kwOr kw "ksg_id" (.int 1) = .int 1 → imMI W (data.map .ofKVar) a cond kw =
      .ok (mean ((List.range n).map (fun t => ksgI p.order n k (data.map KVar.samples) t (ε t))) / b.ln)) ∧
    (kwOr kw "ksg_id" (.int 1) = .int 2 → imMI W (data.map .ofKVar) a cond kw =
      .ok (mean ((List.range n).map (fun t => ksgII p.order n k (data.map KVar.samples) t (ε t))) / b.ln)) := by
  have key : ∀ i : Int, kwOr kw "ksg_id" (.int 1) = .int i → imMI W (data.map .ofKVar) a cond kw =
      ksgMI data (some 0) false ⟨k, i, p⟩ noNoise b := by
    intro i hi
    rw [e2e_mi_metric hc hcl.name (by simpa using H.two) hcl.accepted (k := k) (by rw [h1]; simp [PyVal.toNat]) (i := i)
      (by rw [hi]; rfl) (v := 0) (by simp only [kwOr, h0, Option.getD_some]; exact toNoise_zero) (mp := p) h2
      (nm := false) (by rw [hp.normalize]; rfl) (o := some 0)
      (by rw [hp.offset]; rfl) hcl.base (mapM_kvars data), noise2_none]
  obtain ⟨v1, v2⟩ := C51_value data n H p hpn k hk hkn b hb ε hε
  exact ⟨fun hi => (key 1 hi).trans v1, fun hi => (key 2 hi).trans v2⟩

/-- **C82** Rényi, without noise. -/
theorem C82_mi_renyi (hcl : Call W .mi .renyi a kw b) (hb : b.Valid) (hc : cond.isVal = false) (hp : Plain kw)
    (h0 : kw "noise_level" = some (.int 0)) (data : List KVar) (n : Nat) (H : MISamples data n) (k : Nat)
    (hk : 0 < k) (hkn : k < n) (h1 : kwOr kw "k" (.int 4) = .int k) (order : PyArg) (q : ℝ)
    (h2 : (kwOr kw "alpha" .none).toArg = some order) (hq0 : order.posNumber = some q) (hq : q < k + 1)
    (ρ : KVar → Nat → ℝ) (ρj : Nat → ℝ)
    (hρ : ∀ v ∈ data, ∀ t < n, IsKthDist n k t (dists (some 2) v.samples t) (ρ v t))
    (hj : ∀ t < n, IsKthDist n k t (jointDists (some 2) (data.map KVar.samples) t) (ρj t))
    (hex : ∀ v ∈ data, ∃ t < n, ρ v t ≠ 0) (hexj : ∃ t < n, ρj t ≠ 0) :
    imMI W (data.map .ofKVar) a cond kw =
      .ok (((data.map (fun v => renyiNN (n - 1) k v.dim q ((List.range n).map (ρ v)))).sum -
        renyiNN (n - 1) k (data.map KVar.dim).sum q ((List.range n).map ρj)) / b.ln) := by
  rw [e2e_mi_renyi hc hcl.name (by simpa using H.two) hcl.accepted (k := .int k) (by rw [h1]; rfl) h2 (v := 0)
      (by simp only [kwOr, h0, Option.getD_some]; exact toNoise_zero)
      (nm := false) (by rw [hp.normalize]; rfl) (o := some 0)
      (by rw [hp.offset]; rfl) hcl.base (mapM_kvars data), noise2_none]
  exact C65_mi_renyi data n H k hk hkn order q hq0 hq b hb ρ ρj hρ hj hex hexj

/-- **C82** Tsallis, without noise. -/
theorem C82_mi_tsallis (hcl : Call W .mi .tsallis a kw b) (hc : cond.isVal = false) (hp : Plain kw)
    (h0 : kw "noise_level" = some (.int 0)) (data : List KVar) (n : Nat) (H : MISamples data n) (k : Nat)
    (hk : 0 < k) (hkn : k < n) (h1 : kwOr kw "k" (.int 4) = .int k) (order : PyArg) (q : ℝ)
    (h2 : (kwOr kw "q" .none).toArg = some order) (hq0 : order.posNumber = some q) (hq1 : q ≠ 1) (hq : q < k + 1)
    (ρ : KVar → Nat → ℝ) (ρj : Nat → ℝ)
    (hρ : ∀ v ∈ data, ∀ t < n, IsKthDist n k t (dists (some 2) v.samples t) (ρ v t))
    (hj : ∀ t < n, IsKthDist n k t (jointDists (some 2) (data.map KVar.samples) t) (ρj t))
    (hex : ∀ v ∈ data, ∃ t < n, ρ v t ≠ 0) (hexj : ∃ t < n, ρj t ≠ 0) :
    imMI W (data.map .ofKVar) a cond kw =
      .ok ((data.map (fun v => tsallisNN (n - 1) k v.dim q ((List.range n).map (ρ v)))).sum -
        tsallisNN (n - 1) k (data.map KVar.dim).sum q ((List.range n).map ρj)) := by
  rw [e2e_mi_tsallis hc hcl.name (by simpa using H.two) hcl.accepted (k := .int k) (by rw [h1]; rfl) h2 (v := 0)
      (by simp only [kwOr, h0, Option.getD_some]; exact toNoise_zero)
      (nm := false) (by rw [hp.normalize]; rfl) (o := some 0)
      (by rw [hp.offset]; rfl) hcl.base (mapM_kvars data), noise2_none]
  exact C65_mi_tsallis data n H k hk hkn order q hq0 hq1 hq b ρ ρj hρ hj hex hexj

/-! ## Conditional mutual information -/

/-- both ways to ask for a conditional mutual information give `r` -/
def CmiIs (W : World) (data : List PyData) (a : PyName) (z : PyData) (kw : Kw) (r : Except Exc ℝ) : Prop :=
  imCMI W data a (.val z) kw = r ∧ imMI W data a (.val z) kw = r

/-- **C82** discrete: `Σ p(x,y,z) log (p(z) p(x,y,z) / (p(x,z) p(y,z)))`. -/
theorem C82_cmi (h : Call W .cmi .discrete a kw b) (hb : b.Valid) (ho : kwOr kw "offset" (.int 0) = .int 0)
    (xs ys z : List Int) (h1 : xs.length = ys.length) (h2 : ys.length = z.length) (hx : xs ≠ []) (hov : xs.length < 2 ^ 32) :
    CmiIs W [.ints xs, .ints ys] a (.ints z) kw (.ok (Spec.cmi xs ys z / b.ln)) := by
  have e := e2e_cmi_discrete h.name (by simp) h.accepted (o := some 0) (by rw [ho]; rfl) h.base (mapM_ints [xs, ys])
    (dz := .ints z) (z := z) rfl
  have e0 : discreteCMI [xs, ys] (some (.arr1 z)) (some 0) b false = discreteCMI [xs, ys] (some (.arr1 z)) none b false := by
    rw [discreteCMI_eq (z := z) (by simp) (by simp [h1, h2]) rfl (Or.inl rfl),
      discreteCMI_eq (z := z) (by simp) (by simp [h1, h2]) rfl (Or.inr rfl)]
  rw [e0, C16_cmi_is_textbook xs ys z h1 h2 hx hov b hb] at e
  exact e

/-- **C82** the six parameter-free bias-corrected estimators. -/
theorem C82_cmi_bias {f : Fam} {m : Method} (hf : FamMethod f m) (h : Call W .cmi f a kw b) (hb : b.Valid) (hp : Plain kw)
    (cols : List (List Int)) (z : List Int) (hN : 0 < z.length) (h2 : 2 ≤ cols.length) (hl : ∀ c ∈ cols, c.length = z.length) :
    CmiIs W (cols.map .ints) a (.ints z) kw (.ok (((cols.map (fun v => m.value (v.zip z))).sum
        - m.value ((rows z.length cols).zip z) - m.value z) / b.ln)) := by
  have h2' : 2 ≤ (cols.map PyData.ints).length := by simpa using h2
  have hn : (kwOr kw "normalize" (.bool false)).toBool = some false := by rw [hp.normalize]; rfl
  have ho : (kwOr kw "offset" (.int 0)).toOptInt = some (some 0) := by rw [hp.offset]; rfl
  have hz : (PyData.ints z).toInts = some z := rfl
  unfold CmiIs
  cases hf with
  | grassberger =>
    rw [← (C66_cmi _ _ .grassberger cols z hN h2 hl b hb).1 trivial]
    exact e2e_cmi_grassberger h.name h2' h.accepted hn ho h.base (mapM_ints cols) hz
  | chaoShen =>
    rw [← (C66_cmi _ _ .chaoShen cols z hN h2 hl b hb).1 trivial]
    exact e2e_cmi_chaoShen h.name h2' h.accepted hn ho h.base (mapM_ints cols) hz
  | chaoWangJost =>
    rw [← (C66_cmi _ _ .chaoWangJost cols z hN h2 hl b hb).1 trivial]
    exact e2e_cmi_chaoWangJost h.name h2' h.accepted hn ho h.base (mapM_ints cols) hz
  | shrink =>
    rw [← (C66_cmi _ _ .shrink cols z hN h2 hl b hb).1 trivial]
    exact e2e_cmi_shrink h.name h2' h.accepted hn ho h.base (mapM_ints cols) hz
  | zhang =>
    rw [← (C66_cmi _ _ .zhang cols z hN h2 hl b hb).1 trivial]
    exact e2e_cmi_zhang h.name h2' h.accepted hn ho h.base (mapM_ints cols) hz
  | bonachela =>
    rw [← (C66_cmi _ _ .bonachela cols z hN h2 hl b hb).1 trivial]
    exact e2e_cmi_bonachela h.name h2' h.accepted hn ho h.base (mapM_ints cols) hz

/-- **C82** the Bayesian estimator. -/
theorem C82_cmi_bayes (al : AlphaArg) (K : Option PyArg) {m : Method} (hm : (BiasClass.bayes al K).Means m)
    (h : Call W .cmi .bayes a kw b) (hb : b.Valid) (hp : Plain kw)
    (h1 : (kw "alpha").bind PyVal.toAlpha = some al) (h3 : (kwOr kw "K" .none).toOptArg = some K)
    (cols : List (List Int)) (z : List Int) (hN : 0 < z.length) (h2 : 2 ≤ cols.length) (hl : ∀ c ∈ cols, c.length = z.length) :
    CmiIs W (cols.map .ints) a (.ints z) kw (.ok (((cols.map (fun v => m.value (v.zip z))).sum
        - m.value ((rows z.length cols).zip z) - m.value z) / b.ln)) := by
  unfold CmiIs
  rw [← (C66_cmi _ _ hm cols z hN h2 hl b hb).1 (by cases hm <;> trivial)]
  exact e2e_cmi_bayes h.name (by simpa using h2) h.accepted h1 h3 (by rw [hp.normalize]; rfl) (o := some 0)
    (by rw [hp.offset]; rfl) h.base (mapM_ints cols) rfl

/-- **C82** Miller–Madow (0 if the condition and one of the variables are constant). -/
theorem C82_cmi_miller_madow (h : Call W .cmi .millerMadow a kw b) (hb : b.Valid) (ho : kwOr kw "offset" (.int 0) = .int 0)
    (cols : List (List Int)) (z : List Int) (hN : 0 < z.length) (h2 : 2 ≤ cols.length) (hl : ∀ c ∈ cols, c.length = z.length)
    (hov : z.length ^ cols.length < 2 ^ 64) :
    CmiIs W (cols.map .ints) a (.ints z) kw (.ok (open Classical in if IsConst z ∧ ∃ c ∈ cols, IsConst c then 0 else
      ((cols.map (fun c => millerMadow (rows z.length [c, z]))).sum - millerMadow (rows z.length (cols ++ [z])) -
        millerMadow z) / b.ln)) := by
  have e := e2e_cmi_millerMadow h.name (by simpa using h2) h.accepted (o := some 0) (by rw [ho]; rfl) h.base (mapM_ints cols)
    (dz := .ints z) (z := z) rfl
  have e0 : discreteCMI cols (some (.arr1 z)) (some 0) b true = discreteCMI cols (some (.arr1 z)) none b true := by
    rw [discreteCMI_eq (z := z) h2 (by simpa using hl) rfl (Or.inl rfl),
      discreteCMI_eq (z := z) h2 (by simpa using hl) rfl (Or.inr rfl)]
  obtain ⟨hs, hj, hz, e1, e2, e3, e4⟩ := C19_mm_cmi_complete cols z hN h2 hl hov b hb
  have e1' := ok_of_mapM_map (g := fun c => millerMadow (rows z.length [c, z]) / b.ln) (fun c hcm =>
    mm_tup hN (by simp) (by simp [hl c hcm]) hb) e1
  rw [mm_tup hN (by simp) (by intro c hc; rcases List.mem_append.1 hc with h | h
                              · exact hl c h
                              · rw [List.mem_singleton.1 h]) hb] at e2
  rw [HEst.entropy_arr1 _ (List.length_pos_iff.1 hN)] at e3
  have e3' := Except.ok.inj ((mmSimple_ok z hb).symm.trans e3)
  rw [e0, e4, e1', ← Except.ok.inj e2, ← e3', bias_sum_div_map, ← sub_div, ← sub_div] at e
  exact e

/-- **C82** ANSB: finite exactly if some joint row repeats. -/
theorem C82_cmi_ansb (h : Call W .cmi .ansb a kw b) (hb : b.Valid) (hp : Plain kw) (u : ℝ) (hu : 0 ≤ u)
    (h1 : (kwOr kw "undersampled" (.num (1 / 10))).toNum = some u)
    (cols : List (List Int)) (z : List Int) (hN : 0 < z.length) (h2 : 2 ≤ cols.length) (hl : ∀ c ∈ cols, c.length = z.length) :
    (¬ ((rows z.length cols).zip z).Nodup → CmiIs W (cols.map .ints) a (.ints z) kw
      (.ok (((cols.map (fun v => Method.ansb.value (v.zip z))).sum - Method.ansb.value ((rows z.length cols).zip z) -
        Method.ansb.value z) / b.ln))) ∧
    (((rows z.length cols).zip z).Nodup → CmiIs W (cols.map .ints) a (.ints z) kw (.error .nonFinite)) := by
  have e := e2e_cmi_ansb h.name (by simpa using h2) h.accepted h1 (by rw [hp.normalize]; rfl) (o := some 0)
    (by rw [hp.offset]; rfl) h.base (mapM_ints cols) (dz := .ints z) (z := z) rfl
  have := C66_cmi _ _ (.ansb hu) cols z hN h2 hl b hb
  unfold CmiIs
  exact ⟨fun hn => by rw [this.1 hn] at e; exact e, fun hn => by rw [this.2 (not_not.2 hn)] at e; exact e⟩

/-- **C82** NSB. -/
theorem C82_cmi_nsb (h : Call W .cmi .nsb a kw b) (hb : b.Valid) (hp : Plain kw) (K : Option Nat)
    (hK : kwOr kw "K" .none = (match K with | none => .none | some k => .int k)) (hK0 : ∀ k, K = some k → 0 < k)
    (cols : List (List Int)) (z : List Int) (hN : 0 < z.length) (h2 : 2 ≤ cols.length) (hl : ∀ c ∈ cols, c.length = z.length) :
    let ok := (∀ v ∈ cols, Nsb.Defined (v.zip z) K) ∧ Nsb.Defined ((rows z.length cols).zip z) K ∧ Nsb.Defined z K
    (ok → CmiIs W (cols.map .ints) a (.ints z) kw (.ok (((cols.map (fun v => Nsb.value (v.zip z) K)).sum
        - Nsb.value ((rows z.length cols).zip z) K - Nsb.value z K) / b.ln))) ∧
    (¬ ok → CmiIs W (cols.map .ints) a (.ints z) kw (.error .nonFinite)) := by
  have e := e2e_cmi_nsb h.name (by simpa using h2) h.accepted (K := nsbArg K) (by rw [hK]; cases K <;> rfl)
    (by rw [hp.normalize]; rfl) (o := some 0) (by rw [hp.offset]; rfl) h.base (mapM_ints cols) (dz := .ints z) (z := z) rfl
  have := C67_cmi W.find K hK0 cols z hN h2 hl b hb
  unfold CmiIs
  exact ⟨fun hn => by rw [this.1 hn] at e; exact e, fun hn => by rw [this.2 hn] at e; exact e⟩

/-- **C82** ordinal. -/
theorem C82_cmi_ordinal (h : Call W .cmi .ordinal a kw b) (hb : b.Std)
    (ho : kwOr kw "offset" (.int 0) = .int 0) (x y z : List ℝ) (d s : Nat) (st : Bool)
    (h1 : kwOr kw "embedding_dim" .none = .int d) (h2 : kwOr kw "step_size" (.int 1) = .int s)
    (h3 : kwOr kw "stable" (.bool false) = .bool st) (hd : 1 ≤ d) (hs : 1 ≤ s) (hxy : x.length = y.length)
    (hyz : y.length = z.length) (hn : (d - 1) * s < x.length) (hov : x.length < 2 ^ 32) (htx : TieFree x d s)
    (hty : TieFree y d s) (htz : TieFree z d s) :
    CmiIs W [.reals x, .reals y] a (.reals z) kw
      (.ok (Spec.cmi (ordPatterns x d s) (ordPatterns y d s) (ordPatterns z d s) / b.ln)) := by
  obtain ⟨I, e, rfl, _⟩ := C56_ordinal_cmi_is_textbook W.quick x y z hxy hyz d s hd hs hn hov st htx hty htz b hb
  unfold CmiIs
  rw [← e]
  exact e2e_cmi_ordinal h.name (by simp) h.accepted (d := .int d) (by rw [h1]; rfl) (s := .int s) (by rw [h2]; rfl) (st := st)
    (by rw [h3]; rfl) (o := some 0) (by rw [ho]; rfl) h.base (mapM_reals [x, y]) rfl

/-- **C82** box kernel. -/
theorem C82_cmi_box (hcl : Call W .cmi .kernel a kw b) (hb : b.Valid) (hp : Plain kw) (x y z : List ℝ)
    (n : Nat) (hn : 0 < n) (hx : x.length = n) (hy : y.length = n) (hz : z.length = n) (h : ℝ) (hh : 0 < h) (w : Int)
    (h1 : kwOr kw "bandwidth" .none = .num h)
    (h2 : kwOr kw "kernel" .none = .str "box") (h3 : kwOr kw "workers" (.int 1) = .int w) :
    CmiIs W [.reals x, .reals y] a (.reals z) kw (.ok (boxCMI n h (smp x) (smp y) (smp z) / b.ln)) := by
  unfold CmiIs
  rw [← C60_value x y z n hn hx hy hz h hh (resolveWorkers W.cpu w) b hb (some 0) (.inl rfl)]
  exact e2e_cmi_kernel hcl.name (by simp) hcl.accepted (h := .num h) (by rw [h1]; rfl) (kn := .box)
    (by rw [h2]; simp [PyVal.toKernel]) (w := w) (by rw [h3]; rfl) (nm := false) (by rw [hp.normalize]; rfl) (o := some 0)
    (by rw [hp.offset]; rfl) hcl.base (mapM_kvars [.one x, .one y]) rfl

/-- **C82** Gaussian kernel. -/
theorem C82_cmi_gaussian {n : Nat} (hcl : Call W .cmi .kernel a kw b) (hb : b.Valid) (hp : Plain kw)
    (he : EigOK W.eig) (x y z : List ℝ) (hn : 2 ≤ n) (hx : x.length = n) (hy : y.length = n) (hz : z.length = n)
    (hs : Spread ![x, y, z]) (h : ℝ) (hh : 0 < h) (h1 : kwOr kw "bandwidth" .none = .num h)
    (h2 : kwOr kw "kernel" .none = .str "gaussian") (h3 : kwOr kw "workers" (.int 1) = .int 1) :
    CmiIs W [.reals x, .reals y] a (.reals z) kw (.ok (gaussCMI n x y z h / b.ln)) := by
  unfold CmiIs
  rw [← C71_cmi_value W.eig he x y z hn hx hy hz hs h hh (resolveWorkers W.cpu 1) (by simp [resolveWorkers]) b hb]
  exact e2e_cmi_kernel hcl.name (by simp) hcl.accepted (h := .num h) (by rw [h1]; rfl) (kn := gaussian W.eig)
    (by rw [h2]; simp [PyVal.toKernel]) (w := 1) (by rw [h3]; rfl) (nm := false) (by rw [hp.normalize]; rfl) (o := some 0)
    (by rw [hp.offset]; rfl) hcl.base (mapM_kvars [.one x, .one y]) rfl

/-- **C82** Frenzel–Pompe (KSG) conditional mutual information, without noise. -/
theorem C82_cmi_metric (hcl : Call W .cmi .metric a kw b) (hb : b.Valid) (hp : Plain kw)
    (h0 : kw "noise_level" = some (.int 0)) (data : List KVar) (z : KVar) (n : Nat) (H : CMIArgs data z n) (p : PNorm)
    (hpn : p.ok = true) (k : Nat)
    (hk : 0 < k) (hkn : k < n) (h1 : kwOr kw "k" (.int 4) = .int k) (h2 : (kwOr kw "minkowski_p" .inf).toPNorm = some p)
    (ε : Nat → ℝ) (hε : ∀ t < n, IsKthDist n k t (jointDists p.order (data.map KVar.samples ++ [z.samples]) t) (ε t)) :
    (kwOr kw "ksg_id" (.int 1) = .int 1 → CmiIs W (data.map .ofKVar) a (.ofKVar z) kw
      (.ok (mean ((List.range n).map (fun t => ksgCondI p.order n k (data.map KVar.samples) z.samples t (ε t))) / b.ln))) ∧
    (kwOr kw "ksg_id" (.int 1) = .int 2 → CmiIs W (data.map .ofKVar) a (.ofKVar z) kw
      (.ok (mean ((List.range n).map (fun t => ksgCondII p.order n k (data.map KVar.samples) z.samples t (ε t))) / b.ln))) := by
  have key : ∀ i : Int, kwOr kw "ksg_id" (.int 1) = .int i → CmiIs W (data.map .ofKVar) a (.ofKVar z) kw
      (ksgCMI data (some z) (some 0) false ⟨k, i, p⟩ noNoise none b) := by
    intro i hi
    have e := e2e_cmi_metric hcl.name (by simpa using H.two) hcl.accepted (k := k) (by rw [h1]; simp [PyVal.toNat]) (i := i)
      (by rw [hi]; rfl) (v := 0) (by simp only [kwOr, h0, Option.getD_some]; exact toNoise_zero) (mp := p) h2
      (nm := false) (by rw [hp.normalize]; rfl) (o := some 0)
      (by rw [hp.offset]; rfl) hcl.base (mapM_kvars data) (toKVar_ofKVar z)
    rw [noise2_none, noiseSum_zero] at e
    exact e
  constructor
  · intro hi
    have := key 1 hi
    rw [ksgCMI_val data z n H ⟨k, 1, p⟩ hpn (.inl rfl) hk hkn b hb ε hε] at this
    simpa only [ksgCondVal_one (cfg := ⟨k, 1, p⟩) rfl] using this
  · intro hi
    have := key 2 hi
    rw [ksgCMI_val data z n H ⟨k, 2, p⟩ hpn (.inr rfl) hk hkn b hb ε hε] at this
    simpa only [ksgCondVal_two (cfg := ⟨k, 2, p⟩) rfl] using this

/-- **C82** Rényi and Tsallis conditional mutual information without noise: `Σᵢ H(Xᵢ,Z) − H(X₁,…,Xₙ,Z) − H(Z)` of the results of
`im.entropy` with the same `k`, order and base. -/
theorem C82_cmi_renyi (hcl : Call W .cmi .renyi a kw b) {a' : PyName} {kw' : Kw} (hcl' : Call W .h .renyi a' kw' b)
    (hp : Plain kw) (h0 : kw "noise_level" = some (.int 0)) (data : List KVar) (z : KVar) (n : Nat) (H : CMISamples data z n)
    (k order : PyArg) (h1 : (kwOr kw "k" (.int 4)).toArg = some k) (h1' : (kwOr kw' "k" (.int 4)).toArg = some k)
    (h2 : (kwOr kw "alpha" .none).toArg = some order) (h2' : (kwOr kw' "alpha" .none).toArg = some order)
    (hv : KVar → ℝ) (hj hz : ℝ) (e1 : ∀ v ∈ data, imEntropy W [.ofKVar (sideBySide n [v, z])] a' .absent kw' = .ok (hv v))
    (e2 : imEntropy W [.ofKVar (sideBySide n (data ++ [z]))] a' .absent kw' = .ok hj)
    (e3 : imEntropy W [.ofKVar z] a' .absent kw' = .ok hz) :
    CmiIs W (data.map .ofKVar) a (.ofKVar z) kw (.ok ((data.map hv).sum - hj - hz)) := by
  have key : ∀ v, imEntropy W [.ofKVar v] a' .absent kw' = expEntropy renyiVal [.arr v] k order b := fun v => by
    rw [(e2e_h_renyi hcl'.name hcl'.accepted h1' h2' hcl'.base).1]
    simp only [List.map_cons, List.map_nil, toKArg_ofKVar]
  have hl : ∀ v ∈ data, v.len = n := fun v hv => (H.mi.sample v hv).len
  rw [← C65_cmi renyiVal data z n H k order b hv hj hz
    (fun v hvd => by rw [C64_joint _ _ (by simp) n (by simp [hl v hvd, H.cond.len]), ← key]; exact e1 v hvd)
    (by rw [C64_joint _ _ (by simp) n (by
              intro v hvd
              rcases List.mem_append.1 hvd with h | h
              · exact hl v h
              · rw [List.mem_singleton.1 h]; exact H.cond.len), ← key]; exact e2) (by rw [← key]; exact e3)]
  have e := e2e_cmi_renyi hcl.name (by simpa using H.mi.two) hcl.accepted h1 h2 (v := 0)
      (by simp only [kwOr, h0, Option.getD_some]; exact toNoise_zero) (nm := false) (by rw [hp.normalize]; rfl) (o := some 0)
      (by rw [hp.offset]; rfl) hcl.base (mapM_kvars data) (toKVar_ofKVar z)
  rw [noise2_none] at e
  exact e

theorem C82_cmi_tsallis (hcl : Call W .cmi .tsallis a kw b) {a' : PyName} {kw' : Kw} (hcl' : Call W .h .tsallis a' kw' b)
    (hp : Plain kw) (h0 : kw "noise_level" = some (.int 0)) (data : List KVar) (z : KVar) (n : Nat) (H : CMISamples data z n)
    (k order : PyArg) (h1 : (kwOr kw "k" (.int 4)).toArg = some k) (h1' : (kwOr kw' "k" (.int 4)).toArg = some k)
    (h2 : (kwOr kw "q" .none).toArg = some order) (h2' : (kwOr kw' "q" .none).toArg = some order)
    (hv : KVar → ℝ) (hj hz : ℝ) (e1 : ∀ v ∈ data, imEntropy W [.ofKVar (sideBySide n [v, z])] a' .absent kw' = .ok (hv v))
    (e2 : imEntropy W [.ofKVar (sideBySide n (data ++ [z]))] a' .absent kw' = .ok hj)
    (e3 : imEntropy W [.ofKVar z] a' .absent kw' = .ok hz) :
    CmiIs W (data.map .ofKVar) a (.ofKVar z) kw (.ok ((data.map hv).sum - hj - hz)) := by
  have key : ∀ v, imEntropy W [.ofKVar v] a' .absent kw' = expEntropy tsallisVal [.arr v] k order b := fun v => by
    rw [(e2e_h_tsallis hcl'.name hcl'.accepted h1' h2' hcl'.base).1]
    simp only [List.map_cons, List.map_nil, toKArg_ofKVar]
  have hl : ∀ v ∈ data, v.len = n := fun v hv => (H.mi.sample v hv).len
  rw [← C65_cmi tsallisVal data z n H k order b hv hj hz
    (fun v hvd => by rw [C64_joint _ _ (by simp) n (by simp [hl v hvd, H.cond.len]), ← key]; exact e1 v hvd)
    (by rw [C64_joint _ _ (by simp) n (by
              intro v hvd
              rcases List.mem_append.1 hvd with h | h
              · exact hl v h
              · rw [List.mem_singleton.1 h]; exact H.cond.len), ← key]; exact e2) (by rw [← key]; exact e3)]
  have e := e2e_cmi_tsallis hcl.name (by simpa using H.mi.two) hcl.accepted h1 h2 (v := 0)
      (by simp only [kwOr, h0, Option.getD_some]; exact toNoise_zero) (nm := false) (by rw [hp.normalize]; rfl) (o := some 0)
      (by rw [hp.offset]; rfl) hcl.base (mapM_kvars data) (toKVar_ofKVar z)
  rw [noise2_none] at e
  exact e

end Verif
