import Verif.Props.NumbersPar

/-!
# C89: literal parameters mean what they say

Concrete calls that meet the hypotheses are in `Props/NumbersEx.lean`.
-/

namespace Verif

open Spec

variable {W : World} {data : List PyData} {a : PyName} {cond : CondKw PyData} {kw : Kw} {f : Fam} {key : String} {v w : PyVal} {r x : ℝ}

theorem UnitIs.base (h : UnitIs v r) : ∃ b : Base, v.toBase = some b ∧ b.Valid ∧ b.ln = r := by
  rcases h with ⟨rfl, rfl⟩ | ⟨x, h, h0, h1, rfl⟩
  · exact ⟨.e, rfl, trivial, rfl⟩
  · exact ⟨.num x, isNumber_base h, ⟨h0, h1⟩, rfl⟩

theorem NormIs.norm {p : Option ℝ} (h : NormIs v p) : ∃ q : PNorm, v.toPNorm = some q ∧ q.ok = true ∧ q.order = p := by
  rcases h with ⟨rfl, rfl⟩ | ⟨x, h, h0, rfl⟩
  · exact ⟨.inf, rfl, rfl, rfl⟩
  · refine ⟨.num x, ?_, ?_, rfl⟩
    · rcases h with rfl | ⟨n, rfl, rfl⟩ <;> rfl
    · simp [PNorm.ok, h0]

theorem lit_alpha (h : IsNumber v x) : v.toAlpha = some (.num x) := by
  rcases h with rfl | ⟨n, rfl, rfl⟩ <;> rfl

theorem lit_kwOr {d : PyVal} (h : kw key = some v) : kwOr kw key d = v := by simp [kwOr, h]

theorem lit_call {k : Kind} (hn : Names W.lower k a f) (ha : Only (acceptedKw W.b0 ⟨k, f⟩) kw) (hb : kw "base" = some w) {b : Base} (h : w.toBase = some b) :
    Call W k f a kw b := ⟨hn, ha, by rw [lit_kwOr hb]; exact h⟩

/-- **C89** `entropy(x, approach="discrete", base=w)`: the Shannon entropy of the frequencies in nats, divided by 1 for `base="e"` and by `ln x` for the number `x`. -/
theorem C89_base (hn : Names W.lower .h a .discrete) (ha : Only (acceptedKw W.b0 ⟨.h, .discrete⟩) kw) (hb : kw "base" = some w) (hw : UnitIs w r)
    (xs : List Int) (hx : xs ≠ []) : imEntropy W [.ints xs] a .absent kw = .ok (Spec.entropy xs / r) := by
  obtain ⟨b, h1, h2, rfl⟩ := hw.base
  have h := lit_call hn ha hb h1
  have hm : [PyData.ints xs].mapM PyData.toEInput = some [.arr1 xs] := rfl
  rw [(e2e_h_discrete h.name h.accepted h.base hm).1]
  exact C03_discrete_entropy_eq_shannon xs hx b h2

/-- **C89** `entropy(x, approach="bayes", alpha=c, K=K, base=w)`: the formula with exactly this concentration and this support size. -/
theorem C89_bayes (hn : Names W.lower .h a .bayes) (ha : Only (acceptedKw W.b0 ⟨.h, .bayes⟩) kw) (hb : kw "base" = some w) (hw : UnitIs w r)
    (hal : kw "alpha" = some v) (hv : IsNumber v x) (h0 : 0 ≤ x) (K : Nat) (hK : 0 < K) (hk : kw "K" = some (.int K)) (xs : List Int) (hx : xs ≠ []) :
    imEntropy W [.ints xs] a .absent kw = .ok (bayes xs K x / r) := by
  obtain ⟨b, h1, h2, rfl⟩ := hw.base
  have h := lit_call hn ha hb h1
  have hm : [PyData.ints xs].mapM PyData.toEInput = some [.arr1 xs] := rfl
  rw [(e2e_h_bayes h.name h.accepted (al := .num x) (by rw [hal]; exact lit_alpha hv) (K := some K)
    (by rw [lit_kwOr hk]; simp [PyVal.toOptNat]) h.base hm).1, dclass_arr1 _ b hx]
  exact bayesSimple_ok hx (.num x) (some K) rfl h0 h2

/-- **C89** `entropy(x, approach="metric", k=k, minkowski_p=v, noise_level=0, base=w)`: distances in the maximum norm for infinity and in the Minkowski
norm of order `x` for the number `x ≥ 1`. -/
theorem C89_norm (hn : Names W.lower .h a .metric) (ha : Only (acceptedKw W.b0 ⟨.h, .metric⟩) kw) (hb : kw "base" = some w) (hw : UnitIs w r)
    (y : KVar) (n : Nat) (H : y.Sample n) {p : Option ℝ} (hpv : kw "minkowski_p" = some v) (hp : NormIs v p) (k : Nat) (hk : 0 < k) (hkn : k < n)
    (h1 : kw "k" = some (.int k)) (h2 : kw "ksg_id" = some (.int 1)) (h3 : kw "noise_level" = some (.int 0)) (ε : Nat → ℝ)
    (hε : ∀ t < n, IsKthDist n k t (dists p y.samples t) (ε t)) :
    imEntropy W [.ofKVar y] a .absent kw = .ok (mean ((List.range n).map (fun t => if ε t = 0 then 0 else klTerm p n k y.dim (ε t))) / r) := by
  obtain ⟨b, e1, e2, rfl⟩ := hw.base
  obtain ⟨q, q1, q2, rfl⟩ := hp.norm
  exact C82_metric_entropy (lit_call hn ha hb e1) e2 y n H q q2 k hk hkn (lit_kwOr h1) (lit_kwOr h2) h3 (by rw [lit_kwOr hpv]; exact q1) ε hε

/-! ## Parameters that must be positive -/

theorem lit_notPositive (h : NotPositive v) : ∃ p : PyArg, v.toArg = some p ∧ p.posNumber = none := by
  rcases h with rfl | ⟨s, rfl⟩ | ⟨x, rfl | ⟨n, rfl, rfl⟩, hx⟩
  · exact ⟨.other, rfl, rfl⟩
  · exact ⟨.other, rfl, rfl⟩
  · exact ⟨.num x, rfl, by simp [PyArg.posNumber, hx]⟩
  · have : n ≤ 0 := by exact_mod_cast hx
    exact ⟨.int n, rfl, by simp [PyArg.posNumber, this]⟩

/-- the call raises -/
def Raises {α : Type} (r : Except Exc α) : Prop := ∃ e, r = .error e

theorem Raises.err {α : Type} (e : Exc) : Raises (.error e : Except Exc α) := ⟨e, rfl⟩
theorem Raises.left {α β : Type} {m : Except Exc α} {g : α → Except Exc β} (h : Raises m) : Raises (m >>= g) := by
  obtain ⟨e, rfl⟩ := h; exact ⟨e, rfl⟩
theorem Raises.right {α β : Type} {m : Except Exc α} {g : α → Except Exc β} (h : ∀ x, Raises (g x)) : Raises (m >>= g) := by
  cases m with
  | error e => exact ⟨e, rfl⟩
  | ok x => exact h x

section
variable {cfg : KdeCfg} (h : cfg.bandwidth.posNumber = none)
include h

theorem raises_kde (d : Arr) (at? : Option Arr) : Raises (kdeDensity d at? cfg) := by
  unfold kdeDensity; rw [h]; exact .err _
theorem raises_kernelSimple (b : Base) (d : Arr) : Raises (kernelSimple cfg b d) := .left (raises_kde h _ _)
theorem raises_kernelEntropyLocal (args : List KArg) (b : Base) : Raises (kernelEntropyLocal args cfg b) := by
  unfold kernelEntropyLocal
  split
  · exact raises_kernelSimple h _ _
  · split_ifs
    · exact .right fun _ => raises_kernelSimple h _ _
    · exact .err _
  · exact .err _
  · exact .err _
theorem raises_kernelEntropy (args : List KArg) (b : Base) : Raises (kernelEntropy args cfg b) := by
  unfold kernelEntropy
  split
  · exact .left (raises_kde h _ _)
  · exact .left (raises_kernelEntropyLocal h _ _)
theorem raises_kernelMI (d : List KVar) (o : Option Int) (nm : Bool) (b : Base) : Raises (kernelMI d o nm cfg b) :=
  .left (.right fun _ => .right fun _ => .left (raises_kde h _ _))
theorem raises_kernelCMI (d : List KVar) (c : Option KVar) (o : Option Int) (nm : Bool) (b : Base) : Raises (kernelCMI d c o nm cfg b) :=
  .left (.right fun _ => .right fun _ => .left (raises_kde h _ _))
theorem raises_kernelTE (x y : List ℝ) (p : TEParams) (u o : Option PyArg) (b : Base) : Raises (kernelTE x y p u o cfg b) :=
  .left (.right fun _ => .right fun _ => .right fun _ => .left (raises_kde h _ _))
theorem raises_kernelCTE (x y : List ℝ) (c : Option (List ℝ)) (p : TEParams) (m : PyArg) (u o : Option PyArg) (b : Base) :
    Raises (kernelCTE x y c p m u o cfg b) :=
  .left (.right fun _ => .right fun _ => .right fun _ => .left (raises_kde h _ _))

end

section
variable (val : Nat → ℝ → KnnParts → ℝ → Base → Except Exc ℝ) (k : PyArg) (b : Base) {q : PyArg} (h : q.posNumber = none)
include h

theorem raises_expParams : Raises (expParams k q) := by
  unfold expParams; rw [h]; exact .err _
theorem raises_expEntropy (args : List KArg) : Raises (expEntropy val args k q b) := by
  unfold expEntropy expInit
  refine .left ?_
  rw [h]
  dsimp only
  split
  · exact .err _
  · split_ifs
    · exact .err _
    · exact .err _
  · exact .err _
  · exact .err _
theorem raises_expMI (d : List KVar) (o : Option Int) (nm : Bool) (z : Nat → Option (Nat → Nat → ℝ)) : Raises (expMI val d o nm k q z b) :=
  .right fun _ => .left (raises_expParams k h)
theorem raises_expCMI (d : List KVar) (c : Option KVar) (o : Option Int) (nm : Bool) (z : Nat → Option (Nat → Nat → ℝ)) (zz : Option (Nat → Nat → ℝ)) :
    Raises (expCMI val d c o nm k q z zz b) :=
  .right fun _ => .left (raises_expParams k h)
theorem raises_expTE (x y : List ℝ) (p : TEParams) (u o : Option PyArg) (zx zy : Option (Nat → ℝ)) : Raises (expTE val x y p u o k q zx zy b) :=
  .right fun _ => .left (raises_expParams k h)
theorem raises_expCTE (x y : List ℝ) (c : Option (List ℝ)) (p : TEParams) (m : PyArg) (u o : Option PyArg) (zx zy zz : Option (Nat → ℝ)) :
    Raises (expCTE val x y c p m u o k q zx zy zz b) :=
  .right fun _ => .left (raises_expParams k h)

end

/-- what an estimator's result is, if it is in the model -/
def OptRaises (o : Option (Except Exc ℝ)) : Prop := ∀ r, o = some r → Raises r

theorem OptRaises.bind {τ : Type} {m : Option τ} {g : τ → Option (Except Exc ℝ)} (h : ∀ x, m = some x → OptRaises (g x)) : OptRaises (m >>= g) := by
  intro r hr
  cases m with
  | none => cases hr
  | some x => exact h x rfl r hr

theorem OptRaises.some {r : Except Exc ℝ} (h : Raises r) : OptRaises (some r) := by
  intro r' e; cases e; exact h

theorem kde_bandwidth {e : Est} {p : PyArg} {cfg : KdeCfg} (h : e.get "bandwidth" PyVal.toArg = some p) (hc : e.kde W = some cfg) : cfg.bandwidth = p := by
  unfold Est.kde at hc
  rw [h] at hc
  simp only [Option.bind_eq_bind, Option.bind_some, Option.bind_eq_some_iff] at hc
  obtain ⟨_, _, _, _, hc⟩ := hc
  cases hc; rfl

theorem raises_result {e : Est} (hf : positiveKw e.cls.fam = some key) {p : PyArg} (hp : e.get key PyVal.toArg = some p) (h : p.posNumber = none)
    (hm : ∀ other, Est.result { W with other := other } e = Est.result W e) : Raises (Est.result W e) := by
  obtain ⟨⟨kind, fam⟩, data, cond, par⟩ := e
  have fin : ∀ o : Est → Option (Except Exc ℝ), (∀ other, Est.result { W with other := other } ⟨⟨kind, fam⟩, data, cond, par⟩ = (o ⟨⟨kind, fam⟩, data, cond, par⟩).getD (other ⟨⟨kind, fam⟩, data, cond, par⟩)) →
      OptRaises (o ⟨⟨kind, fam⟩, data, cond, par⟩) → Raises (Est.result W ⟨⟨kind, fam⟩, data, cond, par⟩) := by
    intro o ho hr
    have e1 := modelled_some hm o ho _ rfl
    cases hx : o ⟨⟨kind, fam⟩, data, cond, par⟩ with
    | some r => rw [hx] at e1; rw [← e1]; exact hr r hx
    | none =>
      have h0 := hm fun _ => .ok 0
      have h1 := hm fun _ => .ok 1
      rw [ho, hx, Option.getD_none] at h0 h1
      rw [← h0] at h1
      exact absurd (Except.ok.inj h1) (by norm_num)
  have step : ∀ {τ : Type} {m : Option τ} {g : τ → Option (Except Exc ℝ)}, (∀ x, OptRaises (g x)) → OptRaises (m >>= g) :=
    fun h => OptRaises.bind fun x _ => h x
  cases fam <;> simp only [positiveKw, Option.some.injEq, reduceCtorEq] at hf
  all_goals subst hf
  · -- kernel
    have kd : ∀ {g : KdeCfg → Option (Except Exc ℝ)}, (∀ c : KdeCfg, c.bandwidth.posNumber = none → OptRaises (g c)) → OptRaises (Est.kde W ⟨⟨kind, .kernel⟩, data, cond, par⟩ >>= g) :=
      fun hg => OptRaises.bind fun c hc => hg c (by rw [kde_bandwidth hp hc]; exact h)
    cases kind
    · exact fin (Est.entropy W) (fun _ => rfl) (step fun _ => kd fun c hc => .some (raises_kernelEntropy hc _ _))
    · exact fin (Est.mi W) (fun _ => rfl) (step fun _ => step fun _ => step fun _ => step fun _ => kd fun c hc => .some (raises_kernelMI hc _ _ _ _))
    · exact fin (Est.cmi W) (fun _ => rfl) (step fun _ => step fun _ => step fun _ => step fun _ => step fun _ => step fun _ => kd fun c hc => .some (raises_kernelCMI hc _ _ _ _ _))
    · exact fin (Est.teVal W) (fun _ => rfl) (step fun _ => step fun _ => step fun _ => step fun _ => step fun _ => kd fun c hc => .some (raises_kernelTE hc _ _ _ _ _ _))
    · exact fin (Est.cteVal W) (fun _ => rfl) (step fun _ => step fun _ => step fun _ => step fun _ => step fun _ => step fun _ => step fun _ => step fun _ => kd fun c hc => .some (raises_kernelCTE hc _ _ _ _ _ _ _ _))
  all_goals
    have gt : ∀ {kk : String} {g : PyArg → Option (Except Exc ℝ)}, kk = _ → (∀ q : PyArg, q.posNumber = none → OptRaises (g q)) → OptRaises (Est.get ⟨⟨kind, _⟩, data, cond, par⟩ kk PyVal.toArg >>= g) :=
      fun hk hg => OptRaises.bind fun q hq => hg q (by rw [hk] at hq; rw [hp] at hq; cases hq; exact h)
    cases kind
    · exact fin (Est.entropy W) (fun _ => rfl) (step fun _ => step fun _ => gt rfl fun _ hq => .some (raises_expEntropy _ _ _ hq _))
    · exact fin (Est.mi W) (fun _ => rfl) (step fun _ => step fun _ => step fun _ => step fun _ => step fun _ => gt rfl fun _ hq => step fun _ => .some (raises_expMI _ _ _ hq _ _ _ _))
    · exact fin (Est.cmi W) (fun _ => rfl) (step fun _ => step fun _ => step fun _ => step fun _ => step fun _ => step fun _ => step fun _ => gt rfl fun _ hq => step fun _ => .some (raises_expCMI _ _ _ hq _ _ _ _ _ _))
    · exact fin (Est.teVal W) (fun _ => rfl) (step fun _ => step fun _ => step fun _ => step fun _ => step fun _ => step fun _ => gt rfl fun _ hq => step fun _ => .some (raises_expTE _ _ _ hq _ _ _ _ _ _ _))
    · exact fin (Est.cteVal W) (fun _ => rfl) (step fun _ => step fun _ => step fun _ => step fun _ => step fun _ => step fun _ => step fun _ => step fun _ => step fun _ => gt rfl fun _ hq => step fun _ => .some (raises_expCTE _ _ _ hq _ _ _ _ _ _ _ _ _ _))

theorem positive_param (k : Kind) (hf : positiveKw f = some key) :
    key ∈ requiredKw k f ∨ ∃ d, (key, d) ∈ optionalKw W.b0 ⟨k, f⟩ := by
  cases f <;> simp only [positiveKw, Option.some.injEq, reduceCtorEq] at hf <;> subst hf <;> cases k <;>
    simp [requiredKw, optionalKw, ownKw, normalizeKw, commonKw]

/-- **C89** The bandwidth of the kernel approach and the orders of Rényi's and Tsallis's are positive numbers: with `None`, a string, zero or a negative
number every public function raises. -/
theorem C89_not_positive (fn : PubFn) (hn : Names W.lower (fn.kind cond) a f) (hf : positiveKw f = some key) (hv : kw key = some v) (hp : NotPositive v)
    (hm : fn.Modelled W data a cond kw) : ∃ e, fn.run W data a cond kw = .error e := by
  by_cases ht : fn.Takes data cond
  swap
  · exact ⟨_, C82_value_error fn data a cond _ (.inr ht)⟩
  have hm' : ∀ other, fn.run { W with other := other } data a cond kw = fn.run W data a cond kw := hm
  have h1 : ∀ other : Est → Except Exc ℝ, fn.run { W with other := other } data a cond kw =
    (buildEst W { cls := ⟨fn.kind cond, f⟩, data := data, cond := cond, kw := kw }) >>= Est.result { W with other := other } :=
      fun other => pubFn_ok (W := { W with other := other }) hn ht kw
  have h2 := pubFn_ok hn ht kw
  simp only [h1] at hm'
  rw [h2]
  cases hb : ctorParams W.b0 { cls := ⟨fn.kind cond, f⟩, data := data, cond := cond, kw := kw } with
  | error x =>
    refine ⟨x, ?_⟩
    simp only [buildEst, bind, Except.bind, hb]
  | ok p =>
    have hbe : buildEst W { cls := ⟨fn.kind cond, f⟩, data := data, cond := cond, kw := kw } = .ok ⟨⟨fn.kind cond, f⟩, data, cond.toOption, p⟩ := by
      simp only [buildEst, bind, Except.bind, hb]
      rfl
    rw [hbe] at hm' ⊢
    obtain ⟨pa, q1, q2⟩ := lit_notPositive hp
    have hpk : p key = some v := by
      obtain ⟨c1, c2⟩ := C81_values W.b0 _ p hb
      rcases positive_param (W := W) (fn.kind cond) hf with hr | ⟨d, hr⟩
      · rw [c1 key hr]; exact hv
      · rw [c2 _ hr]
        simp only [hv, Option.getD_some]
    exact raises_result hf (p := pa) (by simp only [Est.get, hpk, Option.bind_some]; exact q1) q2 hm'

end Verif
