import Verif.Props.EndToEnd2
import Verif.Props.Ksg3
import Verif.Props.RenyiTsallis2

/-!
# C92 continued: order of variables and observations for the estimators of real data
-/

namespace Verif

open Spec

variable {W : World} {a : PyName} {kw : Kw} {b : Base} {cond : CondKw PyData} {n : Nat}

/-- `data'` arises from the variables `data` (of `n` observations each) by any sequence of: giving the variables in another order,
giving the observations in another order, the same for all variables -/
inductive Reordered (n : Nat) : List KVar → List KVar → Prop
  | order {d d' : List KVar} (h : d.Perm d') : Reordered n d d'
  | samples {d : List KVar} (σ : List Nat) (h : σ.Perm (List.range n)) : Reordered n d (d.map (KVar.reorder σ))
  | trans {d1 d2 d3 : List KVar} (h : Reordered n d1 d2) (h' : Reordered n d2 d3) : Reordered n d1 d3

/-- the same with a condition, which stays the condition -/
inductive ReorderedCond (n : Nat) : List KVar → KVar → List KVar → KVar → Prop
  | order {d d' : List KVar} {z : KVar} (h : d.Perm d') : ReorderedCond n d z d' z
  | samples {d : List KVar} {z : KVar} (σ : List Nat) (h : σ.Perm (List.range n)) :
      ReorderedCond n d z (d.map (KVar.reorder σ)) (z.reorder σ)
  | trans {d1 d2 d3 : List KVar} {z1 z2 z3 : KVar} (h : ReorderedCond n d1 z1 d2 z2) (h' : ReorderedCond n d2 z2 d3 z3) :
      ReorderedCond n d1 z1 d3 z3

theorem Reordered.lift {P : List KVar → Prop} {Q : List KVar → Except Exc ℝ} {d d' : List KVar} (h : Reordered n d d')
    (horder : ∀ d d', P d → d.Perm d' → P d' ∧ Q d = Q d')
    (hsam : ∀ d σ, P d → σ.Perm (List.range n) → P (d.map (KVar.reorder σ)) ∧ Q d = Q (d.map (KVar.reorder σ))) (hd : P d) :
    P d' ∧ Q d = Q d' := by
  induction h with
  | order h => exact horder _ _ hd h
  | samples σ h => exact hsam _ σ hd h
  | trans _ _ i1 i2 =>
    obtain ⟨p1, e1⟩ := i1 hd
    obtain ⟨p2, e2⟩ := i2 p1
    exact ⟨p2, e1.trans e2⟩

theorem ReorderedCond.lift {P : List KVar → KVar → Prop} {Q : List KVar → KVar → Except Exc ℝ} {d d' : List KVar} {z z' : KVar}
    (h : ReorderedCond n d z d' z')
    (horder : ∀ d d' z, P d z → d.Perm d' → P d' z ∧ Q d z = Q d' z)
    (hsam : ∀ d z σ, P d z → σ.Perm (List.range n) → P (d.map (KVar.reorder σ)) (z.reorder σ) ∧
      Q d z = Q (d.map (KVar.reorder σ)) (z.reorder σ)) (hd : P d z) :
    P d' z' ∧ Q d z = Q d' z' := by
  induction h with
  | order h => exact horder _ _ _ hd h
  | samples σ h => exact hsam _ _ σ hd h
  | trans _ _ i1 i2 =>
    obtain ⟨p1, e1⟩ := i1 hd
    obtain ⟨p2, e2⟩ := i2 p1
    exact ⟨p2, e1.trans e2⟩

/-! ## Mutual information -/

theorem neighbours_reorder {σ : List Nat} (hσ : σ.Perm (List.range n)) {data : List KVar} (hl : ∀ v ∈ data, v.len = n) (h : ℝ) {t : Nat}
    (ht : t < n) : neighbours n h ((data.map (KVar.reorder σ)).map KVar.samples) t = neighbours n h (data.map KVar.samples) (σ.getD t 0) := by
  have hf := perm_index hσ
  classical
  unfold neighbours
  rw [← (hf.filter (fun s => decide (∀ X ∈ data.map KVar.samples, InBox h (X.getD (σ.getD t 0) []) (X.getD s [])))).length_eq,
    List.filter_map, List.length_map]
  congr 1
  refine List.filter_congr fun s hs => ?_
  simp only [Function.comp, decide_eq_decide, List.mem_map, forall_exists_index, and_imp, forall_apply_eq_imp_iff₂]
  refine forall₂_congr fun v hv => ?_
  rw [reorder_samples hσ (hl v hv) ht, reorder_samples hσ (hl v hv) (List.mem_range.1 hs)]

theorem boxMI_reorder {σ : List Nat} (hσ : σ.Perm (List.range n)) {data : List KVar} (hl : ∀ v ∈ data, v.len = n) (h : ℝ) :
    boxMI n h ((data.map (KVar.reorder σ)).map KVar.samples) = boxMI n h (data.map KVar.samples) := by
  have hf := perm_index hσ
  unfold boxMI
  conv_rhs => rw [← mean_perm hf, List.map_map]
  congr 1
  refine List.map_congr_left fun t ht => ?_
  have ht := List.mem_range.1 ht
  simp only [Function.comp]
  rw [neighbours_reorder hσ hl h ht, List.map_map, List.map_map, List.map_map]
  congr 3
  refine List.map_congr_left fun v hv => ?_
  simp only [Function.comp]
  rw [show [(KVar.reorder σ v).samples] = ([v].map (KVar.reorder σ)).map KVar.samples from rfl,
    neighbours_reorder hσ (by simpa using hl v hv) h ht]
  rfl

theorem boxMI_perm {data data' : List KVar} (hp : data.Perm data') (h : ℝ) :
    boxMI n h (data.map KVar.samples) = boxMI n h (data'.map KVar.samples) := by
  unfold boxMI
  congr 1
  refine List.map_congr_left fun t _ => ?_
  rw [neighbours_congr (fun X => (hp.map KVar.samples).mem_iff), ((hp.map KVar.samples).map _).prod_eq]

/-- **C92** mutual information, box kernel. -/
theorem C92_mi_box (hcl : Call W .mi .kernel a kw b) (hb : b.Valid) (hc : cond.isVal = false) (hp : Plain kw) (data data' : List KVar)
    (hr : Reordered n data data') (H : MIArgs data n) (h : ℝ) (hh : 0 < h) (w : Int) (h1 : kwOr kw "bandwidth" .none = .num h)
    (h2 : kwOr kw "kernel" .none = .str "box") (h3 : kwOr kw "workers" (.int 1) = .int w) :
    imMI W (data.map .ofKVar) a cond kw = imMI W (data'.map .ofKVar) a cond kw := by
  refine (hr.lift (P := fun d => MIArgs d n) (Q := fun d => imMI W (d.map .ofKVar) a cond kw) ?_ ?_ H).2
  · intro d d' H hd
    refine ⟨H.perm hd, ?_⟩
    rw [C82_mi_box hcl hb hc hp d n H h hh w h1 h2 h3, C82_mi_box hcl hb hc hp d' n (H.perm hd) h hh w h1 h2 h3, boxMI_perm hd]
  · intro d σ H hσ
    refine ⟨H.reorder hσ, ?_⟩
    rw [C82_mi_box hcl hb hc hp d n H h hh w h1 h2 h3, C82_mi_box hcl hb hc hp _ n (H.reorder hσ) h hh w h1 h2 h3, boxMI_reorder hσ H.len]

/-- **C92** the Kraskov–Stögbauer–Grassberger estimators (both), without noise. -/
theorem C92_mi_metric (hcl : Call W .mi .metric a kw b) (hb : b.Valid) (hc : cond.isVal = false) (hp : Plain kw)
    (h0 : kw "noise_level" = some (.int 0)) (data data' : List KVar) (hr : Reordered n data data') (H : MIArgs data n)
    (p : PNorm) (hpn : p.ok = true) (k : Nat) (hk : 0 < k) (i : Int) (hi : i = 1 ∨ i = 2)
    (h1 : kwOr kw "k" (.int 4) = .int k) (h2 : (kwOr kw "minkowski_p" .inf).toPNorm = some p)
    (h3 : kwOr kw "ksg_id" (.int 1) = .int i) :
    imMI W (data.map .ofKVar) a cond kw = imMI W (data'.map .ofKVar) a cond kw := by
  have key : ∀ d : List KVar, MIArgs d n → imMI W (d.map .ofKVar) a cond kw = ksgMI d (some 0) false ⟨k, i, p⟩ noNoise b := by
    intro d H
    rw [e2e_mi_metric hc hcl.name (by simpa using H.two) hcl.accepted (k := k) (by rw [h1]; simp [PyVal.toNat]) (i := i)
      (by rw [h3]; rfl) (v := 0) (by simp only [kwOr, h0, Option.getD_some]; exact toNoise_zero) (mp := p) h2
      (nm := false) (by rw [hp.normalize]; rfl) (o := some 0)
      (by rw [hp.offset]; rfl) hcl.base (mapM_kvars d), noise2_none]
  refine (hr.lift (P := fun d => MIArgs d n) (Q := fun d => imMI W (d.map .ofKVar) a cond kw) ?_ ?_ H).2
  · intro d d' H hd
    refine ⟨H.perm hd, ?_⟩
    obtain ⟨v, e1, e2⟩ := C51_order d d' hd n H p hpn k hk i hi b hb
    rw [key d H, key d' (H.perm hd), e1, e2]
  · intro d σ H hσ
    refine ⟨H.reorder hσ, ?_⟩
    obtain ⟨v, e1, e2⟩ := C51_sample_order d n H σ hσ p hpn k hk i hi b hb
    rw [key d H, key _ (H.reorder hσ), e1, e2]

theorem MISamples.perm {d d' : List KVar} (H : MISamples d n) (hp : d.Perm d') : MISamples d' n :=
  ⟨by rw [← hp.length_eq]; exact H.two, H.pos, fun v hv => H.sample v (hp.mem_iff.2 hv)⟩

theorem MISamples.reorder {d : List KVar} (H : MISamples d n) {σ : List Nat} (hσ : σ.Perm (List.range n)) :
    MISamples (d.map (KVar.reorder σ)) n := by
  refine ⟨by simpa using H.two, H.pos, fun v hv => ?_⟩
  obtain ⟨u, hu, rfl⟩ := List.mem_map.1 hv
  exact (reorder_sample (H.sample u hu) hσ).1

theorem sym_exp_mi {val : ExpVal} (hval : val = renyiVal ∨ val = tsallisVal) {k : Nat} (hk : 0 < k) (hkn : k < n) {order : PyArg} {q : ℝ}
    (hq0 : order.posNumber = some q) (hq : q < k + 1) (hb : b.Valid)
    (key : ∀ d : List KVar, MISamples d n → imMI W (d.map .ofKVar) a cond kw = expMI val d (some 0) false (.int k) order noNoise b)
    {data data' : List KVar} (hr : Reordered n data data') (H : MISamples data n) :
    imMI W (data.map .ofKVar) a cond kw = imMI W (data'.map .ofKVar) a cond kw := by
  refine (hr.lift (P := fun d => MISamples d n) (Q := fun d => imMI W (d.map .ofKVar) a cond kw) ?_ ?_ H).2
  · intro d d' H hd
    refine ⟨H.perm hd, ?_⟩
    obtain ⟨v, e1, e2⟩ := C65_mi_order val hval d d' hd n H k hk hkn order q hq0 hq b hb
    rw [key d H, key d' (H.perm hd), e1, e2]
  · intro d σ H hσ
    refine ⟨H.reorder hσ, ?_⟩
    rw [key d H, key _ (H.reorder hσ), C65_mi_sample_order val hval d n H σ hσ (.int k) order b hb]

/-- **C92** Rényi, without noise. -/
theorem C92_mi_renyi (hcl : Call W .mi .renyi a kw b) (hb : b.Valid) (hc : cond.isVal = false) (hp : Plain kw)
    (h0 : kw "noise_level" = some (.int 0)) (data data' : List KVar) (hr : Reordered n data data') (H : MISamples data n) (k : Nat)
    (hk : 0 < k) (hkn : k < n) (h1 : kwOr kw "k" (.int 4) = .int k) (order : PyArg) (q : ℝ)
    (h2 : (kwOr kw "alpha" .none).toArg = some order) (hq0 : order.posNumber = some q) (hq : q < k + 1) :
    imMI W (data.map .ofKVar) a cond kw = imMI W (data'.map .ofKVar) a cond kw := by
  refine sym_exp_mi (.inl rfl) hk hkn hq0 hq hb (fun d H => ?_) hr H
  rw [e2e_mi_renyi hc hcl.name (by simpa using H.two) hcl.accepted (k := .int k) (by rw [h1]; rfl) h2 (v := 0)
      (by simp only [kwOr, h0, Option.getD_some]; exact toNoise_zero)
      (nm := false) (by rw [hp.normalize]; rfl) (o := some 0)
      (by rw [hp.offset]; rfl) hcl.base (mapM_kvars d), noise2_none]

/-- **C92** Tsallis, without noise. -/
theorem C92_mi_tsallis (hcl : Call W .mi .tsallis a kw b) (hb : b.Valid) (hc : cond.isVal = false) (hp : Plain kw)
    (h0 : kw "noise_level" = some (.int 0)) (data data' : List KVar) (hr : Reordered n data data') (H : MISamples data n) (k : Nat)
    (hk : 0 < k) (hkn : k < n) (h1 : kwOr kw "k" (.int 4) = .int k) (order : PyArg) (q : ℝ)
    (h2 : (kwOr kw "q" .none).toArg = some order) (hq0 : order.posNumber = some q) (hq : q < k + 1) :
    imMI W (data.map .ofKVar) a cond kw = imMI W (data'.map .ofKVar) a cond kw := by
  refine sym_exp_mi (.inr rfl) hk hkn hq0 hq hb (fun d H => ?_) hr H
  rw [e2e_mi_tsallis hc hcl.name (by simpa using H.two) hcl.accepted (k := .int k) (by rw [h1]; rfl) h2 (v := 0)
      (by simp only [kwOr, h0, Option.getD_some]; exact toNoise_zero)
      (nm := false) (by rw [hp.normalize]; rfl) (o := some 0)
      (by rw [hp.offset]; rfl) hcl.base (mapM_kvars d), noise2_none]

/-- **C92** Gaussian kernel: order of the variables and of the observations. -/
theorem C92_mi_gaussian {m : Nat} (hcl : Call W .mi .kernel a kw b) (hb : b.Valid) (hc : cond.isVal = false) (hp : Plain kw)
    (he : EigOK W.eig) (X : Fin m → List ℝ) (hm : 2 ≤ m) (hn : 2 ≤ n) (hX : ∀ j, (X j).length = n)
    (hs : Spread X) (h : ℝ) (hh : 0 < h) (h1 : kwOr kw "bandwidth" .none = .num h)
    (h2 : kwOr kw "kernel" .none = .str "gaussian") (h3 : kwOr kw "workers" (.int 1) = .int 1) :
    (∀ σ : Equiv.Perm (Fin m), imMI W (List.ofFn (fun j => PyData.reals (X (σ j)))) a cond kw =
      imMI W (List.ofFn (fun j => PyData.reals (X j))) a cond kw) ∧
    (∀ π : List Nat, π.Perm (List.range n) → imMI W (List.ofFn (fun j => PyData.reals (π.map (fun t => (X j).getD t 0)))) a cond kw =
      imMI W (List.ofFn (fun j => PyData.reals (X j))) a cond kw) := by
  have key : ∀ X : Fin m → List ℝ, imMI W (List.ofFn (fun j => PyData.reals (X j))) a cond kw =
      kernelMI (List.ofFn (fun j => KVar.one (X j))) (some 0) false (gaussCfg W.eig h (resolveWorkers W.cpu 1)) b := by
    intro X
    have e : List.ofFn (fun j => PyData.reals (X j)) = (List.ofFn (fun j => KVar.one (X j))).map .ofKVar := by
      rw [List.map_ofFn]; rfl
    rw [e, e2e_mi_kernel hc hcl.name (by simpa using hm) hcl.accepted (h := .num h) (by rw [h1]; rfl) (kn := gaussian W.eig)
      (by rw [h2]; simp [PyVal.toKernel]) (w := 1) (by rw [h3]; rfl) (nm := false) (by rw [hp.normalize]; rfl) (o := some 0)
      (by rw [hp.offset]; rfl) hcl.base (mapM_kvars _)]
    rfl
  have hw : 1 ≤ resolveWorkers W.cpu 1 := by simp [resolveWorkers]
  constructor
  · intro σ
    obtain ⟨v, e1, e2⟩ := C71_mi_order W.eig he X hm hn hX hs σ h hh _ hw b hb
    rw [key, key, e1, e2]
  · intro π hπ
    obtain ⟨v, e1, e2⟩ := C71_mi_sample_order W.eig he X hm hn hX hs π hπ h hh _ hw b hb
    rw [key, key, e1, e2]

/-- **C92** ordinal: symmetric in the two variables (ties or not). -/
theorem C92_mi_ordinal (h : Call W .mi .ordinal a kw b) (hb : b.Std) (hc : cond.isVal = false)
    (ho : kwOr kw "offset" (.int 0) = .int 0) (x y : List ℝ) (d s : Nat) (st : Bool)
    (h1 : kwOr kw "embedding_dim" .none = .int d) (h2 : kwOr kw "step_size" (.int 1) = .int s)
    (h3 : kwOr kw "stable" (.bool false) = .bool st) (hd : 1 ≤ d) (hs : 1 ≤ s) (hxy : x.length = y.length)
    (hn : (d - 1) * s < x.length) (hov : x.length < 2 ^ 32) :
    imMI W [.reals x, .reals y] a cond kw = imMI W [.reals y, .reals x] a cond kw := by
  have key : ∀ x y : List ℝ, imMI W [.reals x, .reals y] a cond kw =
      ordMI W.quick [x, y] { dim := .int d, step := .int s, stable := st } (some 0) b := fun x y => by
    rw [e2e_mi_ordinal hc h.name (by simp) h.accepted (d := .int d) (by rw [h1]; rfl) (s := .int s) (by rw [h2]; rfl) (st := st)
      (by rw [h3]; rfl) (o := some 0) (by rw [ho]; rfl) h.base (show [PyData.reals x, PyData.reals y].mapM PyData.toSeries = some [x, y] from rfl)]
  rw [key, key]
  exact C56_symmetric W.quick x y hxy d s hd hs hn hov st b hb

/-! ## Conditional mutual information -/

/-- both ways to ask for a conditional mutual information give the same for the two data sets -/
def CmiSameReal (W : World) (a : PyName) (kw : Kw) (d : List KVar) (z : KVar) (d' : List KVar) (z' : KVar) : Prop :=
  imCMI W (d.map .ofKVar) a (.val (.ofKVar z)) kw = imCMI W (d'.map .ofKVar) a (.val (.ofKVar z')) kw ∧
  imMI W (d.map .ofKVar) a (.val (.ofKVar z)) kw = imMI W (d'.map .ofKVar) a (.val (.ofKVar z')) kw

theorem CMIArgs.perm {d d' : List KVar} {z : KVar} (H : CMIArgs d z n) (hp : d.Perm d') : CMIArgs d' z n :=
  ⟨(H.mi.perm hp).two, H.pos, (H.mi.perm hp).len, (H.mi.perm hp).wf, H.lenz, H.wfz⟩

/-- **C92** Frenzel–Pompe (KSG) conditional mutual information (both variants), without noise. -/
theorem C92_cmi_metric (hcl : Call W .cmi .metric a kw b) (hb : b.Valid) (hp : Plain kw)
    (h0 : kw "noise_level" = some (.int 0)) (data data' : List KVar) (z z' : KVar) (hr : ReorderedCond n data z data' z')
    (H : CMIArgs data z n) (p : PNorm) (hpn : p.ok = true) (k : Nat) (hk : 0 < k) (hkn : k < n) (i : Int) (hi : i = 1 ∨ i = 2)
    (h1 : kwOr kw "k" (.int 4) = .int k) (h2 : (kwOr kw "minkowski_p" .inf).toPNorm = some p)
    (h3 : kwOr kw "ksg_id" (.int 1) = .int i) : CmiSameReal W a kw data z data' z' := by
  have key : ∀ (d : List KVar) (z : KVar), CMIArgs d z n → CmiIs W (d.map .ofKVar) a (.ofKVar z) kw
      (ksgCMI d (some z) (some 0) false ⟨k, i, p⟩ noNoise none b) := by
    intro d z H
    have e := e2e_cmi_metric hcl.name (by simpa using H.two) hcl.accepted (k := k) (by rw [h1]; simp [PyVal.toNat]) (i := i)
      (by rw [h3]; rfl) (v := 0) (by simp only [kwOr, h0, Option.getD_some]; exact toNoise_zero) (mp := p) h2
      (nm := false) (by rw [hp.normalize]; rfl) (o := some 0)
      (by rw [hp.offset]; rfl) hcl.base (mapM_kvars d) (toKVar_ofKVar z)
    rw [noise2_none, noiseSum_zero] at e
    exact e
  obtain ⟨H', e⟩ := hr.lift (P := fun d z => CMIArgs d z n) (Q := fun d z => ksgCMI d (some z) (some 0) false ⟨k, i, p⟩ noNoise none b)
    (fun d d' z H hd => ⟨H.perm hd, by
      obtain ⟨v, e1, e2⟩ := C62_order d d' hd z n H p hpn k hk hkn i hi b hb
      rw [e1, e2]⟩)
    (fun d z σ H hσ => ⟨H.reorder hσ, by
      obtain ⟨v, e1, e2⟩ := C62_sample_order d z n H σ hσ p hpn k hk i hi b hb
      rw [e1, e2]⟩) H
  have k1 := key data z H
  have k2 := key data' z' H'
  exact ⟨k1.1.trans (e.trans k2.1.symm), k1.2.trans (e.trans k2.2.symm)⟩

theorem CMISamples.perm {d d' : List KVar} {z : KVar} (H : CMISamples d z n) (hp : d.Perm d') : CMISamples d' z n := ⟨H.mi.perm hp, H.cond⟩

theorem CMISamples.reorder {d : List KVar} {z : KVar} (H : CMISamples d z n) {σ : List Nat} (hσ : σ.Perm (List.range n)) :
    CMISamples (d.map (KVar.reorder σ)) (z.reorder σ) n := ⟨H.mi.reorder hσ, (reorder_sample H.cond hσ).1⟩

theorem sym_exp_cmi {val : ExpVal} (hval : val = renyiVal ∨ val = tsallisVal) {k : Nat} (hk : 0 < k) (hkn : k < n) {order : PyArg} {q : ℝ}
    (hq0 : order.posNumber = some q) (hq : q < k + 1) (hb : b.Valid)
    (key : ∀ (d : List KVar) (z : KVar), CMISamples d z n → CmiIs W (d.map .ofKVar) a (.ofKVar z) kw
      (expCMI val d (some z) (some 0) false (.int k) order noNoise none b))
    {data data' : List KVar} {z z' : KVar} (hr : ReorderedCond n data z data' z') (H : CMISamples data z n) :
    CmiSameReal W a kw data z data' z' := by
  obtain ⟨H', e⟩ := hr.lift (P := fun d z => CMISamples d z n) (Q := fun d z => expCMI val d (some z) (some 0) false (.int k) order noNoise none b)
    (fun d d' z H hd => ⟨H.perm hd, by
      obtain ⟨v, e1, e2⟩ := C65_cmi_order val hval d d' hd z n H k hk hkn order q hq0 hq b hb
      rw [e1, e2]⟩)
    (fun d z σ H hσ => ⟨H.reorder hσ, (C65_cmi_sample_order val hval d z n H σ hσ (.int k) order b hb).symm⟩) H
  have k1 := key data z H
  have k2 := key data' z' H'
  exact ⟨k1.1.trans (e.trans k2.1.symm), k1.2.trans (e.trans k2.2.symm)⟩

/-- **C92** Rényi, without noise. -/
theorem C92_cmi_renyi (hcl : Call W .cmi .renyi a kw b) (hb : b.Valid) (hp : Plain kw)
    (h0 : kw "noise_level" = some (.int 0)) (data data' : List KVar) (z z' : KVar) (hr : ReorderedCond n data z data' z')
    (H : CMISamples data z n) (k : Nat) (hk : 0 < k) (hkn : k < n) (h1 : kwOr kw "k" (.int 4) = .int k) (order : PyArg) (q : ℝ)
    (h2 : (kwOr kw "alpha" .none).toArg = some order) (hq0 : order.posNumber = some q) (hq : q < k + 1) :
    CmiSameReal W a kw data z data' z' := by
  refine sym_exp_cmi (.inl rfl) hk hkn hq0 hq hb (fun d z H => ?_) hr H
  have e := e2e_cmi_renyi hcl.name (by simpa using H.mi.two) hcl.accepted (k := .int k) (by rw [h1]; rfl) h2 (v := 0)
      (by simp only [kwOr, h0, Option.getD_some]; exact toNoise_zero) (nm := false) (by rw [hp.normalize]; rfl) (o := some 0)
      (by rw [hp.offset]; rfl) hcl.base (mapM_kvars d) (toKVar_ofKVar z)
  rw [noise2_none] at e
  exact e

/-- **C92** Tsallis, without noise. -/
theorem C92_cmi_tsallis (hcl : Call W .cmi .tsallis a kw b) (hb : b.Valid) (hp : Plain kw)
    (h0 : kw "noise_level" = some (.int 0)) (data data' : List KVar) (z z' : KVar) (hr : ReorderedCond n data z data' z')
    (H : CMISamples data z n) (k : Nat) (hk : 0 < k) (hkn : k < n) (h1 : kwOr kw "k" (.int 4) = .int k) (order : PyArg) (q : ℝ)
    (h2 : (kwOr kw "q" .none).toArg = some order) (hq0 : order.posNumber = some q) (hq : q < k + 1) :
    CmiSameReal W a kw data z data' z' := by
  refine sym_exp_cmi (.inr rfl) hk hkn hq0 hq hb (fun d z H => ?_) hr H
  have e := e2e_cmi_tsallis hcl.name (by simpa using H.mi.two) hcl.accepted (k := .int k) (by rw [h1]; rfl) h2 (v := 0)
      (by simp only [kwOr, h0, Option.getD_some]; exact toNoise_zero) (nm := false) (by rw [hp.normalize]; rfl) (o := some 0)
      (by rw [hp.offset]; rfl) hcl.base (mapM_kvars d) (toKVar_ofKVar z)
  rw [noise2_none] at e
  exact e

theorem boxCMI_symm (h : ℝ) (X Y Z : List (List ℝ)) : boxCMI n h X Y Z = boxCMI n h Y X Z := by
  unfold boxCMI
  congr 1
  refine List.map_congr_left fun t _ => ?_
  rw [neighbours_congr (vars := [Y, X, Z]) (vars' := [X, Y, Z]) (by simp; tauto), mul_comm ((neighbours n h [Y, Z] t : ℝ))]

theorem boxCMI_reorder {σ : List Nat} (hσ : σ.Perm (List.range n)) {x y z : KVar} (hx : x.len = n) (hy : y.len = n) (hz : z.len = n) (h : ℝ) :
    boxCMI n h (x.reorder σ).samples (y.reorder σ).samples (z.reorder σ).samples = boxCMI n h x.samples y.samples z.samples := by
  have hf := perm_index hσ
  unfold boxCMI
  conv_rhs => rw [← mean_perm hf, List.map_map]
  congr 1
  refine List.map_congr_left fun t ht => ?_
  have ht := List.mem_range.1 ht
  simp only [Function.comp]
  have e1 := neighbours_reorder hσ (data := [x, y, z]) (by simp [hx, hy, hz]) h ht
  have e2 := neighbours_reorder hσ (data := [x, z]) (by simp [hx, hz]) h ht
  have e3 := neighbours_reorder hσ (data := [y, z]) (by simp [hy, hz]) h ht
  have e4 := neighbours_reorder hσ (data := [z]) (by simp [hz]) h ht
  simp only [List.map_cons, List.map_nil] at e1 e2 e3 e4
  rw [e1, e2, e3, e4]

/-- **C92** box kernel, two variables: symmetric, and independent of the order of the observations. -/
theorem C92_cmi_box (hcl : Call W .cmi .kernel a kw b) (hb : b.Valid) (hp : Plain kw) (x y z : List ℝ)
    (hn : 0 < n) (hx : x.length = n) (hy : y.length = n) (hz : z.length = n) (h : ℝ) (hh : 0 < h) (w : Int)
    (h1 : kwOr kw "bandwidth" .none = .num h)
    (h2 : kwOr kw "kernel" .none = .str "box") (h3 : kwOr kw "workers" (.int 1) = .int w) :
    CmiSameReal W a kw [.one x, .one y] (.one z) [.one y, .one x] (.one z) ∧
    (∀ σ : List Nat, σ.Perm (List.range n) → CmiSameReal W a kw [.one x, .one y] (.one z)
      [.one (σ.map (fun t => x.getD t 0)), .one (σ.map (fun t => y.getD t 0))] (.one (σ.map (fun t => z.getD t 0)))) := by
  have p := C82_cmi_box hcl hb hp x y z n hn hx hy hz h hh w h1 h2 h3
  constructor
  · have q := C82_cmi_box hcl hb hp y x z n hn hy hx hz h hh w h1 h2 h3
    rw [boxCMI_symm] at q
    exact ⟨p.1.trans q.1.symm, p.2.trans q.2.symm⟩
  · intro σ hσ
    have hlen : σ.length = n := by rw [hσ.length_eq, List.length_range]
    have q := C82_cmi_box hcl hb hp (σ.map (fun t => x.getD t 0)) (σ.map (fun t => y.getD t 0)) (σ.map (fun t => z.getD t 0)) n hn
      (by simpa using hlen) (by simpa using hlen) (by simpa using hlen) h hh w h1 h2 h3
    have e := boxCMI_reorder hσ (x := .one x) (y := .one y) (z := .one z) hx hy hz h
    rw [show boxCMI n h (smp (σ.map (fun t => x.getD t 0))) (smp (σ.map (fun t => y.getD t 0))) (smp (σ.map (fun t => z.getD t 0))) =
      boxCMI n h (smp x) (smp y) (smp z) from e] at q
    exact ⟨p.1.trans q.1.symm, p.2.trans q.2.symm⟩

/-- **C92** Gaussian kernel: symmetric. -/
theorem C92_cmi_gaussian (hcl : Call W .cmi .kernel a kw b) (hb : b.Valid) (hp : Plain kw)
    (he : EigOK W.eig) (x y z : List ℝ) (hn : 2 ≤ n) (hx : x.length = n) (hy : y.length = n) (hz : z.length = n)
    (hs : Spread ![x, y, z]) (h : ℝ) (hh : 0 < h) (h1 : kwOr kw "bandwidth" .none = .num h)
    (h2 : kwOr kw "kernel" .none = .str "gaussian") (h3 : kwOr kw "workers" (.int 1) = .int 1) :
    CmiSameReal W a kw [.one x, .one y] (.one z) [.one y, .one x] (.one z) := by
  have key : ∀ x y : List ℝ, CmiIs W [.reals x, .reals y] a (.reals z) kw
      (kernelCMI [.one x, .one y] (some (.one z)) (some 0) false (gaussCfg W.eig h (resolveWorkers W.cpu 1)) b) := fun x y =>
    e2e_cmi_kernel hcl.name (by simp) hcl.accepted (h := .num h) (by rw [h1]; rfl) (kn := gaussian W.eig)
      (by rw [h2]; simp [PyVal.toKernel]) (w := 1) (by rw [h3]; rfl) (nm := false) (by rw [hp.normalize]; rfl) (o := some 0)
      (by rw [hp.offset]; rfl) hcl.base (mapM_kvars [.one x, .one y]) rfl
  obtain ⟨v, e1, e2⟩ := C71_cmi_symmetric W.eig he x y z hn hx hy hz hs h hh (resolveWorkers W.cpu 1) (by simp [resolveWorkers]) b hb
  have p := key x y
  have q := key y x
  rw [e1] at p
  rw [e2] at q
  exact ⟨p.1.trans q.1.symm, p.2.trans q.2.symm⟩

/-! ## Entropy -/

/-- **C92** entropy, box kernel: order of the observations. -/
theorem C92_entropy_box (hc : Call W .h .kernel a kw b) (hb : b.Valid) (v : KVar) (hv : v.WF) (hn : v.len = n) (hN : 2 ≤ n) (h : ℝ) (hh : 0 < h)
    (w : Int) (h1 : kw "bandwidth" = some (.num h)) (h2 : kw "kernel" = some (.str "box"))
    (h3 : kwOr kw "workers" (.int 1) = .int w) (σ : List Nat) (hσ : σ.Perm (List.range n)) :
    imEntropy W [.ofKVar (v.reorder σ)] a .absent kw = imEntropy W [.ofKVar v] a .absent kw := by
  rw [C82_box_entropy hc hb v hv (hn ▸ hN) h hh w h1 h2 h3,
    C82_box_entropy hc hb (v.reorder σ) (reorder_wf hσ hn hv) (by rw [reorder_len hσ]; exact hN) h hh w h1 h2 h3]
  have hcols : (assure2d (v.reorder σ)).cols = (assure2d v).cols := by cases v <;> rfl
  have hlen : σ.length = n := by rw [hσ.length_eq, List.length_range]
  have hp : (assure2d (v.reorder σ)).rows.Perm (assure2d v).rows := by
    have hl : (assure2d v).rows.length = n := by cases v <;> simpa [assure2d, KVar.len] using hn
    have hl' : (assure2d (v.reorder σ)).rows.length = n := by cases v <;> simp [assure2d, KVar.reorder, hlen]
    have e1 : (assure2d (v.reorder σ)).rows = ((List.range n).map (fun t => σ.getD t 0)).map (fun t => (assure2d v).rows.getD t []) := by
      rw [list_eq_range (assure2d (v.reorder σ)).rows [] hl', List.map_map]
      refine List.map_congr_left fun t ht => ?_
      exact reorder_samples hσ hn (List.mem_range.1 ht)
    rw [e1]
    have e2 := list_eq_range (assure2d v).rows [] hl
    conv => rhs; rw [e2]
    exact (perm_index hσ).map _
  rw [boxEntropy_perm hp, hcols]

/-- **C92** Kozachenko–Leonenko, without noise. -/
theorem C92_entropy_metric (hc : Call W .h .metric a kw b) (hb : b.Valid) (v : KVar) (H : v.Sample n) (p : PNorm)
    (hp : p.ok = true) (k : Nat) (hk : 0 < k) (hkn : k < n) (i : Int) (hi : i = 1 ∨ i = 2) (h1 : kwOr kw "k" (.int 4) = .int k)
    (h2 : kwOr kw "ksg_id" (.int 1) = .int i) (h3 : kw "noise_level" = some (.int 0))
    (h4 : (kwOr kw "minkowski_p" .inf).toPNorm = some p) (σ : List Nat) (hσ : σ.Perm (List.range n)) :
    imEntropy W [.ofKVar (v.reorder σ)] a .absent kw = imEntropy W [.ofKVar v] a .absent kw := by
  have key : ∀ v : KVar, imEntropy W [.ofKVar v] a .absent kw = klEntropy [.arr v] ⟨.int k, i, false, p⟩ none none b := fun v => by
    rw [(e2e_h_metric hc.name hc.accepted (k := .int k) (by rw [h1]; rfl) (i := i) (by rw [h2]; rfl) (v := 0)
      (by simp [kwOr, h3, PyVal.toNum]) (mp := p) h4 hc.base).1]
    simp only [List.map_cons, List.map_nil, toKArg_ofKVar, noise2_zero, lt_irrefl, decide_false]
  rw [key, key]
  exact C52_sample_order v n H σ hσ p hp k hk hkn i hi b hb

/-- **C92** Rényi entropy, for every order (also when the estimate is an error). -/
theorem C92_entropy_renyi (hc : Call W .h .renyi a kw b) (hb : b.Valid) (v : KVar) (H : v.Sample n) (k order : PyArg)
    (h1 : (kwOr kw "k" (.int 4)).toArg = some k) (h2 : (kwOr kw "alpha" .none).toArg = some order) (σ : List Nat)
    (hσ : σ.Perm (List.range n)) :
    imEntropy W [.ofKVar (v.reorder σ)] a .absent kw = imEntropy W [.ofKVar v] a .absent kw := by
  rw [(e2e_h_renyi hc.name hc.accepted h1 h2 hc.base).1, (e2e_h_renyi hc.name hc.accepted h1 h2 hc.base).1]
  simp only [List.map_cons, List.map_nil, toKArg_ofKVar]
  exact expEntropy_reorder H hσ renyiVal_symmetric k order hb

/-- **C92** Tsallis entropy, for every order. -/
theorem C92_entropy_tsallis (hc : Call W .h .tsallis a kw b) (hb : b.Valid) (v : KVar) (H : v.Sample n) (k order : PyArg)
    (h1 : (kwOr kw "k" (.int 4)).toArg = some k) (h2 : (kwOr kw "q" .none).toArg = some order) (σ : List Nat)
    (hσ : σ.Perm (List.range n)) :
    imEntropy W [.ofKVar (v.reorder σ)] a .absent kw = imEntropy W [.ofKVar v] a .absent kw := by
  rw [(e2e_h_tsallis hc.name hc.accepted h1 h2 hc.base).1, (e2e_h_tsallis hc.name hc.accepted h1 h2 hc.base).1]
  simp only [List.map_cons, List.map_nil, toKArg_ofKVar]
  exact expEntropy_reorder H hσ tsallisVal_symmetric k order hb

/-- **C92** Gaussian kernel, one-dimensional data. -/
theorem C92_entropy_gaussian (hc : Call W .h .kernel a kw b) (hb : b.Valid) (he : EigOK W.eig) (xs ys : List ℝ) (hp : xs.Perm ys)
    (hn : 2 ≤ xs.length) (hv : 0 < sampleVar xs) (h : ℝ) (hh : 0 < h) (h1 : kw "bandwidth" = some (.num h))
    (h2 : kw "kernel" = some (.str "gaussian")) (h3 : kwOr kw "workers" (.int 1) = .int 1) :
    imEntropy W [.reals xs] a .absent kw = imEntropy W [.reals ys] a .absent kw := by
  have key : ∀ xs : List ℝ, imEntropy W [.reals xs] a .absent kw =
      kernelEntropy [.arr (.one xs)] (gaussCfg W.eig h (resolveWorkers W.cpu 1)) b := fun xs =>
    (e2e_h_kernel hc.name hc.accepted (h := .num h) (by rw [h1]; rfl) (kn := gaussian W.eig)
      (by rw [h2]; simp [PyVal.toKernel]) (w := 1) (by rw [h3]; rfl) hc.base).1
  obtain ⟨v, e1, e2⟩ := C71_entropy_sample_order W.eig he xs ys hp hn hv h hh (resolveWorkers W.cpu 1) (by simp [resolveWorkers]) b hb
  rw [key, key, e1, e2]

/-! ## The offset of the mutual information -/

/-- **C92** exchanging the two variables is changing the sign of `offset` (two calls, whose other parameters may differ): discrete. -/
theorem C92_mi_offset {a' : PyName} {kw' : Kw} {cond' : CondKw PyData} {f : Fam} (hf : f = .discrete ∨ f = .millerMadow)
    (h : Call W .mi f a kw b) (h' : Call W .mi f a' kw' b) (hb : b.Std) (hc : cond.isVal = false) (hc' : cond'.isVal = false) (o : Int)
    (ho : kwOr kw "offset" (.int 0) = .int o) (ho' : kwOr kw' "offset" (.int 0) = .int (-o)) (xs ys : List Int)
    (hl : xs.length = ys.length) (hx : o.natAbs < xs.length) (hov : xs.length < 2 ^ 32) :
    imMI W [.ints xs, .ints ys] a cond kw = imMI W [.ints ys, .ints xs] a' cond' kw' := by
  rcases hf with rfl | rfl
  · rw [e2e_mi_discrete hc h.name (by simp) h.accepted (o := some o) (by rw [ho]; rfl) h.base (xs := [xs, ys]) rfl,
      e2e_mi_discrete hc' h'.name (by simp) h'.accepted (o := some (-o)) (by rw [ho']; rfl) h'.base (xs := [ys, xs]) rfl]
    obtain ⟨v, e1, e2⟩ := C25_mi_offset_swap xs ys hl o hx hov b hb false
    rw [e1, e2]
  · rw [e2e_mi_millerMadow hc h.name (by simp) h.accepted (o := some o) (by rw [ho]; rfl) h.base (xs := [xs, ys]) rfl,
      e2e_mi_millerMadow hc' h'.name (by simp) h'.accepted (o := some (-o)) (by rw [ho']; rfl) h'.base (xs := [ys, xs]) rfl]
    obtain ⟨v, e1, e2⟩ := C25_mi_offset_swap xs ys hl o hx hov b hb true
    rw [e1, e2]

/-- **C92** the same for the six parameter-free bias-corrected estimators. -/
theorem C92_mi_offset_bias {a' : PyName} {kw' : Kw} {cond' : CondKw PyData} {f : Fam} {m : Method} (hf : FamMethod f m)
    (h : Call W .mi f a kw b) (h' : Call W .mi f a' kw' b) (hb : b.Valid) (hc : cond.isVal = false) (hc' : cond'.isVal = false)
    (hn : kwOr kw "normalize" (.bool false) = .bool false) (hn' : kwOr kw' "normalize" (.bool false) = .bool false) (o : Int)
    (ho : kwOr kw "offset" (.int 0) = .int o) (ho' : kwOr kw' "offset" (.int 0) = .int (-o)) (xs ys : List Int)
    (hl : xs.length = ys.length) (hx : o.natAbs < xs.length) :
    imMI W [.ints xs, .ints ys] a cond kw = imMI W [.ints ys, .ints xs] a' cond' kw' := by
  have n1 : (kwOr kw "normalize" (.bool false)).toBool = some false := by rw [hn]; rfl
  have n2 : (kwOr kw' "normalize" (.bool false)).toBool = some false := by rw [hn']; rfl
  have o1 : (kwOr kw "offset" (.int 0)).toOptInt = some (some o) := by rw [ho]; rfl
  have o2 : (kwOr kw' "offset" (.int 0)).toOptInt = some (some (-o)) := by rw [ho']; rfl
  have m1 : [PyData.ints xs, .ints ys].mapM PyData.toInts = some [xs, ys] := rfl
  have m2 : [PyData.ints ys, .ints xs].mapM PyData.toInts = some [ys, xs] := rfl
  cases hf with
  | grassberger =>
    rw [e2e_mi_grassberger hc h.name (by simp) h.accepted n1 o1 h.base m1, e2e_mi_grassberger hc' h'.name (by simp) h'.accepted n2 o2 h'.base m2]
    exact C66_mi_offset_swap _ _ .grassberger xs ys hl o hx b hb
  | chaoShen =>
    rw [e2e_mi_chaoShen hc h.name (by simp) h.accepted n1 o1 h.base m1, e2e_mi_chaoShen hc' h'.name (by simp) h'.accepted n2 o2 h'.base m2]
    exact C66_mi_offset_swap _ _ .chaoShen xs ys hl o hx b hb
  | chaoWangJost =>
    rw [e2e_mi_chaoWangJost hc h.name (by simp) h.accepted n1 o1 h.base m1, e2e_mi_chaoWangJost hc' h'.name (by simp) h'.accepted n2 o2 h'.base m2]
    exact C66_mi_offset_swap _ _ .chaoWangJost xs ys hl o hx b hb
  | shrink =>
    rw [e2e_mi_shrink hc h.name (by simp) h.accepted n1 o1 h.base m1, e2e_mi_shrink hc' h'.name (by simp) h'.accepted n2 o2 h'.base m2]
    exact C66_mi_offset_swap _ _ .shrink xs ys hl o hx b hb
  | zhang =>
    rw [e2e_mi_zhang hc h.name (by simp) h.accepted n1 o1 h.base m1, e2e_mi_zhang hc' h'.name (by simp) h'.accepted n2 o2 h'.base m2]
    exact C66_mi_offset_swap _ _ .zhang xs ys hl o hx b hb
  | bonachela =>
    rw [e2e_mi_bonachela hc h.name (by simp) h.accepted n1 o1 h.base m1, e2e_mi_bonachela hc' h'.name (by simp) h'.accepted n2 o2 h'.base m2]
    exact C66_mi_offset_swap _ _ .bonachela xs ys hl o hx b hb

end Verif
