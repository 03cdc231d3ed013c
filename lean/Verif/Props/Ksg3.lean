import Verif.Props.Ksg2

/-!
# C62: KSG conditional mutual information

`ksgCMI data (some z) (some 0) false ⟨k, id, p⟩ noise noiseZ b` is `conditional_mutual_information(*data, cond=z,
approach="ksg", k=k, ksg_id=id, minkowski_p=p, base=b)`.
-/

namespace Verif

open Spec

/-- at least two well-formed variables and a condition with `n` samples each -/
structure CMIArgs (data : List KVar) (z : KVar) (n : Nat) : Prop where
  two : 2 ≤ data.length
  pos : 0 < n
  len : ∀ v ∈ data, v.len = n
  wf : ∀ v ∈ data, v.WF
  lenz : z.len = n
  wfz : z.WF

theorem CMIArgs.mi {data : List KVar} {z : KVar} {n : Nat} (H : CMIArgs data z n) : MIArgs data n := ⟨H.two, H.pos, H.len, H.wf⟩

theorem CMIArgs.aligned {data : List KVar} {z : KVar} {n : Nat} (H : CMIArgs data z n) :
    Aligned n (data.map assure2d ++ [assure2d z]) := by
  intro a ha
  rcases List.mem_append.1 ha with h | h
  · exact H.mi.aligned a h
  · rw [List.mem_singleton] at h; subst h; exact arr_aligned H.lenz H.wfz

theorem kcmiInit_args {data : List KVar} {z : KVar} {n : Nat} (H : CMIArgs data z n) {o : Option Int} (ho : o = some 0 ∨ o = none) :
    kcmiInit data (some z) o false = .ok (data, z) := by
  match data, H with
  | [], H => have := H.two; simp at this
  | [x], H => have := H.two; simp at this
  | x :: y :: r, H =>
    have hx := H.len x (by simp)
    have hy := H.len y (by simp)
    have hz := H.lenz
    simp only [kcmiInit, hx, hy, hz, ne_eq, not_true_eq_false, or_self, if_false, not_or, ho, Bool.false_eq_true]
    rfl

/-- local value as a function of the neighbour counts -/
noncomputable def ksgCondVal (cfg : KsgCfg) (n : Nat) (vars : List (List (List ℝ))) (Z : List (List ℝ)) (t : Nat) (ε : ℝ) : ℝ :=
  ksgHead cfg + psi (ksgCount cfg.ksgId n t (dists cfg.p.order Z t) ε + 1) -
    (vars.map (fun X => psi (ksgCount cfg.ksgId n t (jointDists cfg.p.order [X, Z] t) ε + 1))).sum

theorem ksgCondVal_one {cfg : KsgCfg} (h : cfg.ksgId = 1) (n : Nat) (vars : List (List (List ℝ))) (Z : List (List ℝ)) (t : Nat) (ε : ℝ) :
    ksgCondVal cfg n vars Z t ε = ksgCondI cfg.p.order n cfg.k vars Z t ε := by
  unfold ksgCondVal ksgHead ksgCount ksgCondI
  simp only [h, if_true]

theorem ksgCondVal_two {cfg : KsgCfg} (h : cfg.ksgId = 2) (n : Nat) (vars : List (List (List ℝ))) (Z : List (List ℝ)) (t : Nat) (ε : ℝ) :
    ksgCondVal cfg n vars Z t ε = ksgCondII cfg.p.order n cfg.k vars Z t ε := by
  unfold ksgCondVal ksgHead ksgCount ksgCondII
  have : ¬ ((2 : Int) = 1) := by decide
  simp only [h, this, if_false]

theorem dists_stack {p : PNorm} {n : Nat} (as : List Arr) {t s : Nat} (ht : t < n) (hs : s < n) :
    dists p.order ((List.range n).map (jrow as)) t s = jointDists p.order (as.map Arr.rows) t s := by
  unfold dists jointDists
  rw [range_map_getD ht, range_map_getD hs, jrow_eq, jrow_eq]

theorem ksgCMICalc_ok {cfg : KsgCfg} (hok : cfg.p.ok = true) {n : Nat} {as : List Arr} {z : Arr} (ha : Aligned n (as ++ [z]))
    (hk : 0 < cfg.k) (hkn : cfg.k < n) {b : Base} (hb : b.Valid) {ε : Nat → ℝ}
    (hε : ∀ t < n, IsKthDist n cfg.k t (jointDists cfg.p.order ((as ++ [z]).map Arr.rows) t) (ε t)) :
    ksgCMICalc cfg b as z = .ok ((List.range n).map (fun t => ksgCondVal cfg n (as.map Arr.rows) z.rows t (ε t) / b.ln)) := by
  have hz := ha z (by simp)
  have haa : ∀ a ∈ as, Aligned n [a, z] := by
    intro a h c hc
    simp only [List.mem_cons, List.not_mem_nil, or_false] at hc
    rcases hc with rfl | rfl
    · exact ha _ (by simp [h])
    · exact hz
  unfold ksgCMICalc
  rw [stackArrs_ok (by simp) (fun a h => (ha a h).1)]
  simp only [bind, Except.bind]
  rw [if_neg (by omega)]
  rw [mapM_ok (g := fun a => (⟨([a, z].map Arr.cols).sum, (List.range n).map (jrow [a, z])⟩ : Arr)) as (fun a h =>
    stackArrs_ok (by simp) (fun c hc => (haa a h c hc).1))]
  simp only
  rw [hz.1]
  refine mapM_ok (List.range n) fun t ht => ?_
  have ht' := List.mem_range.1 ht
  obtain ⟨e, h1, h2, h3⟩ := joint_kth hok ha ht' hk hkn
  have he := isKthDist_unique h3 (hε t ht')
  subst he
  unfold ksgCMIAt
  simp only [h1, ksgLead_ok hk, bind, Except.bind]
  rw [ksgArg_some hok hz.1 hz.2 ht' h2, npDigamma_nat _ (by omega)]
  simp only
  rw [mapM_ok (g := fun v : Arr => psi (ksgCount cfg.ksgId n t (dists cfg.p.order v.rows t) (ε t) + 1)) _ (fun a h => by
    obtain ⟨c, hc, rfl⟩ := List.mem_map.1 h
    rw [ksgArg_some hok (by simp) (points_jrow (haa c hc)) ht' h2, npDigamma_nat _ (by omega)])]
  simp only
  rw [scaleBase_ok hb]
  unfold ksgCondVal ksgHead
  rw [List.map_map, List.map_map]
  congr 2
  rw [add_sub_assoc]
  congr 3
  refine List.map_congr_left fun a h => ?_
  simp only [Function.comp]
  rw [ksgCount_congr (fun s hs => dists_stack [a, z] ht' hs)]
  rfl

theorem cond_samples (data : List KVar) (z : KVar) :
    (data.map assure2d ++ [assure2d z]).map Arr.rows = data.map KVar.samples ++ [z.samples] := by
  rw [List.map_append, samples_eq]; rfl

theorem ksgCMILocal_val (data : List KVar) (z : KVar) (n : Nat) (H : CMIArgs data z n) (cfg : KsgCfg) (hp : cfg.p.ok = true)
    (hid : cfg.ksgId = 1 ∨ cfg.ksgId = 2) (hk : 0 < cfg.k) (hkn : cfg.k < n) (b : Base) (hb : b.Valid) (ε : Nat → ℝ)
    (hε : ∀ t < n, IsKthDist n cfg.k t (jointDists cfg.p.order (data.map KVar.samples ++ [z.samples]) t) (ε t))
    (o : Option Int) (ho : o = some 0 ∨ o = none) :
    ksgCMILocal data (some z) o false cfg noNoise none b =
      .ok ((List.range n).map (fun t => ksgCondVal cfg n (data.map KVar.samples) z.samples t (ε t) / b.ln)) := by
  unfold ksgCMILocal
  rw [kcmiInit_args H ho]
  simp only [bind, Except.bind]
  rw [ksgIdCheck_ok hid]
  simp only
  rw [mapIdx_noNoise]
  have := ksgCMICalc_ok hp H.aligned hk hkn hb (ε := ε) (by rw [cond_samples]; exact hε)
  rw [samples_eq] at this
  exact this

/-- **C62** Local values, type I, for every number of variables, dimension and norm. -/
theorem C62_local (data : List KVar) (z : KVar) (n : Nat) (H : CMIArgs data z n) (p : PNorm) (hp : p.ok = true) (k : Nat) (hk : 0 < k)
    (hkn : k < n) (b : Base) (hb : b.Valid) (ε : Nat → ℝ)
    (hε : ∀ t < n, IsKthDist n k t (jointDists p.order (data.map KVar.samples ++ [z.samples]) t) (ε t)) :
    ksgCMILocal data (some z) (some 0) false ⟨k, 1, p⟩ noNoise none b =
      .ok ((List.range n).map (fun t => ksgCondI p.order n k (data.map KVar.samples) z.samples t (ε t) / b.ln)) := by
  rw [ksgCMILocal_val data z n H ⟨k, 1, p⟩ hp (.inl rfl) hk hkn b hb ε hε _ (.inl rfl)]
  simp only [ksgCondVal_one (cfg := ⟨k, 1, p⟩) rfl]

example := C62_local [.one [0, 3], .one [1, 5]] (.one [2, 4]) 2 ⟨by simp, by decide, by simp [KVar.len], by simp [KVar.WF, assure2d, Points], rfl, by simp [KVar.WF, assure2d, Points]⟩ .inf rfl 1 (by decide) (by decide) .e trivial
  (fun t => jointDists none [[[0], [3]], [[1], [5]], [[2], [4]]] t (1 - t)) (fun t ht => by
    simpa [KVar.samples, assure2d, PNorm.order] using two_isKth (jointDists none [[[0], [3]], [[1], [5]], [[2], [4]]] t) ht)

/-- Local values, type II. -/
theorem C62_local_type2 (data : List KVar) (z : KVar) (n : Nat) (H : CMIArgs data z n) (p : PNorm) (hp : p.ok = true) (k : Nat)
    (hk : 0 < k) (hkn : k < n) (b : Base) (hb : b.Valid) (ε : Nat → ℝ)
    (hε : ∀ t < n, IsKthDist n k t (jointDists p.order (data.map KVar.samples ++ [z.samples]) t) (ε t)) :
    ksgCMILocal data (some z) (some 0) false ⟨k, 2, p⟩ noNoise none b =
      .ok ((List.range n).map (fun t => ksgCondII p.order n k (data.map KVar.samples) z.samples t (ε t) / b.ln)) := by
  rw [ksgCMILocal_val data z n H ⟨k, 2, p⟩ hp (.inr rfl) hk hkn b hb ε hε _ (.inl rfl)]
  simp only [ksgCondVal_two (cfg := ⟨k, 2, p⟩) rfl]

example := C62_local_type2 [.one [0, 3], .one [1, 5]] (.one [2, 4]) 2 ⟨by simp, by decide, by simp [KVar.len], by simp [KVar.WF, assure2d, Points], rfl, by simp [KVar.WF, assure2d, Points]⟩ .inf rfl 1 (by decide) (by decide) .e trivial
  (fun t => jointDists none [[[0], [3]], [[1], [5]], [[2], [4]]] t (1 - t)) (fun t ht => by
    simpa [KVar.samples, assure2d, PNorm.order] using two_isKth (jointDists none [[[0], [3]], [[1], [5]], [[2], [4]]] t) ht)

theorem ksgCMI_val (data : List KVar) (z : KVar) (n : Nat) (H : CMIArgs data z n) (cfg : KsgCfg) (hp : cfg.p.ok = true)
    (hid : cfg.ksgId = 1 ∨ cfg.ksgId = 2) (hk : 0 < cfg.k) (hkn : cfg.k < n) (b : Base) (hb : b.Valid) (ε : Nat → ℝ)
    (hε : ∀ t < n, IsKthDist n cfg.k t (jointDists cfg.p.order (data.map KVar.samples ++ [z.samples]) t) (ε t)) :
    ksgCMI data (some z) (some 0) false cfg noNoise none b =
      .ok (mean ((List.range n).map (fun t => ksgCondVal cfg n (data.map KVar.samples) z.samples t (ε t))) / b.ln) := by
  unfold ksgCMI
  rw [ksgCMILocal_val data z n H cfg hp hid hk hkn b hb ε hε _ (.inl rfl)]
  simp only [bind, Except.bind]
  rw [meanOrNan_ok (by have := H.pos; simp; omega), mean_map_div]

theorem exists_kth_cond {data : List KVar} {z : KVar} {n : Nat} (H : CMIArgs data z n) {p : PNorm} (hp : p.ok = true) {k : Nat}
    (hk : 0 < k) (hkn : k < n) :
    ∃ ε : Nat → ℝ, ∀ t < n, 0 ≤ ε t ∧ IsKthDist n k t (jointDists p.order (data.map KVar.samples ++ [z.samples]) t) (ε t) := by
  have : ∀ t, t < n → ∃ ε, 0 ≤ ε ∧ IsKthDist n k t (jointDists p.order (data.map KVar.samples ++ [z.samples]) t) ε := by
    intro t ht
    obtain ⟨ε, _, h2, h3⟩ := joint_kth hp H.aligned ht hk hkn
    rw [cond_samples] at h3
    exact ⟨ε, h2, h3⟩
  choose! ε hε using this
  exact ⟨ε, hε⟩

/-- The result is a finite number for all data with more than `k` samples, and the two variables may be exchanged. -/
theorem C62_order (data data' : List KVar) (hperm : data.Perm data') (z : KVar) (n : Nat) (H : CMIArgs data z n) (p : PNorm)
    (hp : p.ok = true) (k : Nat) (hk : 0 < k) (hkn : k < n) (id : Int) (hid : id = 1 ∨ id = 2) (b : Base) (hb : b.Valid) :
    ∃ v, ksgCMI data (some z) (some 0) false ⟨k, id, p⟩ noNoise none b = .ok v ∧
      ksgCMI data' (some z) (some 0) false ⟨k, id, p⟩ noNoise none b = .ok v := by
  have H' : CMIArgs data' z n := ⟨(H.mi.perm hperm).two, H.pos, (H.mi.perm hperm).len, (H.mi.perm hperm).wf, H.lenz, H.wfz⟩
  obtain ⟨ε, hε⟩ := exists_kth_cond H hp hk hkn
  refine ⟨_, ksgCMI_val data z n H ⟨k, id, p⟩ hp hid hk hkn b hb ε (fun t ht => (hε t ht).2), ?_⟩
  rw [ksgCMI_val data' z n H' ⟨k, id, p⟩ hp hid hk hkn b hb ε (fun t ht => ?_)]
  · congr 3
    refine List.map_congr_left fun t _ => ?_
    unfold ksgCondVal
    rw [((hperm.map KVar.samples).map _).sum_eq]
  · refine isKthDist_congr (fun s hs => ?_) (hε t ht).2
    rw [← cond_samples, ← cond_samples]
    exact jointDists_perm H.aligned ((hperm.map assure2d).append_right _) ht hs

example := C62_order [.one [0, 1, 3], .one [2, 2, 0]] [.one [2, 2, 0], .one [0, 1, 3]] (List.Perm.swap _ _ _) (.one [2, 4, 4]) 3 ⟨by simp, by decide, by simp [KVar.len], by simp [KVar.WF, assure2d, Points], rfl, by simp [KVar.WF, assure2d, Points]⟩
  .inf rfl 2 (by decide) (by decide) 1 (.inl rfl) .e trivial

/-- all samples of the condition are equal -/
def KVar.Constant (z : KVar) : Prop := ∀ s < z.len, ∀ t < z.len, z.samples.getD s [] = z.samples.getD t []

theorem absDiffs_self (x : List ℝ) : ∀ a ∈ absDiffs x x, a = 0 := by
  intro a ha
  unfold absDiffs at ha
  rw [List.zipWith_self] at ha
  obtain ⟨c, _, rfl⟩ := List.mem_map.1 ha
  simp

/-- a constant last variable does not change the joint distances -/
theorem jointDists_const {p : PNorm} (hp : p.ok = true) {n : Nat} {as : List Arr} {z : Arr} (ha : Aligned n (as ++ [z]))
    (hz : ∀ s < n, ∀ t < n, z.rows.getD s [] = z.rows.getD t []) {t s : Nat} (ht : t < n) (hs : s < n) :
    jointDists p.order ((as ++ [z]).map Arr.rows) t s = jointDists p.order (as.map Arr.rows) t s := by
  have ha' : Aligned n as := fun a h => ha a (by simp [h])
  rw [jointDists_eq ha ht hs, jointDists_eq ha' ht hs, List.map_append, List.flatten_append, List.map_cons, List.map_nil,
    List.flatten_cons, List.flatten_nil, List.append_nil, hz t ht s hs]
  refine normOf_append_zero p hp _ ?_ (absDiffs_self _)
  intro x hx
  rw [List.mem_flatten] at hx
  obtain ⟨l, hL, hx⟩ := hx
  obtain ⟨b, _, rfl⟩ := List.mem_map.1 hL
  exact absDiffs_nonneg _ _ x hx

theorem dists_const {p : PNorm} (hp : p.ok = true) {n : Nat} {z : List (List ℝ)}
    (hz : ∀ s < n, ∀ t < n, z.getD s [] = z.getD t []) {t s : Nat} (ht : t < n) (hs : s < n) : dists p.order z t s = 0 := by
  unfold dists
  rw [hz t ht s hs]
  exact distance_self (PNorm.orderOk hp) _

theorem below_const {n t : Nat} (ht : t < n) {δ : Nat → ℝ} (hδ : ∀ s < n, δ s = 0) {ε : ℝ} (hε : 0 < ε) : below n t δ ε + 1 = n := by
  rw [below_congr hδ, below_eq]
  have h1 := countP_range_split ht (fun _ => True)
  have h3 : (List.range n).countP (fun s => @decide True (Classical.propDecidable _)) = n := by simp
  rw [h3, if_pos trivial] at h1
  refine Eq.trans ?_ h1.symm
  congr! 6
  simp [hε]

theorem within_const {n t : Nat} (ht : t < n) {δ : Nat → ℝ} (hδ : ∀ s < n, δ s = 0) {ε : ℝ} (hε : 0 ≤ ε) : within n t δ ε + 1 = n := by
  rw [within_congr hδ, within_eq]
  have h1 := countP_range_split ht (fun _ => True)
  have h3 : (List.range n).countP (fun s => @decide True (Classical.propDecidable _)) = n := by simp
  rw [h3, if_pos trivial] at h1
  refine Eq.trans ?_ h1.symm
  congr! 6
  simp [hε]

theorem ksgCount_const {id : Int} {n t : Nat} (ht : t < n) {δ : Nat → ℝ} (hδ : ∀ s < n, δ s = 0) {ε : ℝ} (hε : 0 ≤ ε)
    (h : id = 1 → 0 < ε) : ksgCount id n t δ ε + 1 = n := by
  unfold ksgCount
  split_ifs with hi
  · exact below_const ht hδ (h hi)
  · exact within_const ht hδ hε

/-- A constant condition: conditional mutual information of `m` variables is the mutual information minus `(m − 2) ψ(n)`.
For two variables it is exactly the mutual information; for three and more it is not (the estimator sums one term `ψ(n_XZ)`
per variable but only one `ψ(n_Z)`).  For type I the distances to the `k`-th neighbours must be positive. -/
theorem C62_constant_condition (data : List KVar) (z : KVar) (n : Nat) (H : CMIArgs data z n) (hz : z.Constant) (p : PNorm)
    (hp : p.ok = true) (k : Nat) (hk : 0 < k) (hkn : k < n) (id : Int) (hid : id = 1 ∨ id = 2) (b : Base) (hb : b.Valid)
    (hpos : id = 1 → ∀ t < n, ∀ ε, IsKthDist n k t (jointDists p.order (data.map KVar.samples) t) ε → 0 < ε) :
    ∃ v, ksgMI data (some 0) false ⟨k, id, p⟩ noNoise b = .ok v ∧
      ksgCMI data (some z) (some 0) false ⟨k, id, p⟩ noNoise none b = .ok (v - ((data.length : ℝ) - 2) * psi n / b.ln) := by
  obtain ⟨ε, hε⟩ := exists_kth_cond H hp hk hkn
  have hzz : ∀ s < n, ∀ t < n, z.samples.getD s [] = z.samples.getD t [] := fun s hs t ht =>
    hz s (by rw [H.lenz]; exact hs) t (by rw [H.lenz]; exact ht)
  have hj : ∀ t < n, ∀ s < n, jointDists p.order (data.map KVar.samples ++ [z.samples]) t s =
      jointDists p.order (data.map KVar.samples) t s := by
    intro t ht s hs
    have := jointDists_const hp H.aligned hzz ht hs
    rw [cond_samples, samples_eq] at this
    exact this
  have hε' : ∀ t < n, IsKthDist n k t (jointDists p.order (data.map KVar.samples) t) (ε t) := fun t ht =>
    isKthDist_congr (hj t ht) (hε t ht).2
  refine ⟨_, ksgMI_val data n H.mi ⟨k, id, p⟩ hp hid hk hkn b hb ε hε', ?_⟩
  rw [ksgCMI_val data z n H ⟨k, id, p⟩ hp hid hk hkn b hb ε (fun t ht => (hε t ht).2), ← sub_div]
  congr 2
  have hn : (n : ℝ) ≠ 0 := by exact_mod_cast H.pos.ne'
  have e : ((data.length : ℝ) - 2) * psi n = mean ((List.range n).map (fun _ => ((data.length : ℝ) - 2) * psi n)) := by
    unfold mean
    rw [List.map_const', List.sum_replicate, List.length_replicate, List.length_range, nsmul_eq_mul]
    field_simp
  rw [e, ← mean_sub]
  congr 1
  refine List.map_congr_left fun t ht => ?_
  have ht' := List.mem_range.1 ht
  unfold ksgVal ksgCondVal
  rw [ksgCount_const ht' (fun s hs => dists_const hp hzz ht' hs) (hε t ht').1 (fun hi => hpos hi t ht' _ (hε' t ht'))]
  have e2 : (data.map KVar.samples).map (fun X => psi (ksgCount id n t (jointDists p.order [X, z.samples] t) (ε t) + 1)) =
      (data.map KVar.samples).map (fun X => psi (ksgCount id n t (dists p.order X t) (ε t) + 1)) := by
    refine List.map_congr_left fun X hX => ?_
    obtain ⟨v, hv, rfl⟩ := List.mem_map.1 hX
    congr 2
    refine ksgCount_congr (fun s hs => ?_) _
    have ha : Aligned n ([assure2d v] ++ [assure2d z]) := by
      intro c hc
      simp only [List.cons_append, List.nil_append, List.mem_cons, List.not_mem_nil, or_false] at hc
      rcases hc with rfl | rfl
      · exact arr_aligned (H.len v hv) (H.wf v hv)
      · exact arr_aligned H.lenz H.wfz
    have := jointDists_const (p := p) hp ha hzz ht' hs
    simp only [List.cons_append, List.nil_append, List.map_cons, List.map_nil] at this
    refine this.trans ?_
    unfold jointDists jointSample dists
    simp [KVar.samples]
  simp only at e2 ⊢
  rw [e2, List.length_map]
  ring

example := C62_constant_condition [.one [0, 3], .one [1, 5]] (.one [7, 7]) 2 ⟨by simp, by decide, by simp [KVar.len], by simp [KVar.WF, assure2d, Points], rfl, by simp [KVar.WF, assure2d, Points]⟩
  (by intro s hs t ht; simp only [KVar.len, List.length_cons, List.length_nil] at hs ht; interval_cases s <;> interval_cases t <;> rfl)
  (.num 2) (by norm_num [PNorm.ok]) 1 (by decide) (by decide) 1 (.inl rfl) .e trivial (fun _ t ht ε h => by
    rw [two_kth ht h]
    interval_cases t
    · exact lt_of_lt_of_eq (by norm_num) (plane_distance 0 1 3 5).symm
    · exact lt_of_lt_of_eq (by norm_num) (plane_distance 3 5 0 1).symm)

/-- Two variables: a constant condition is no condition. -/
theorem C62_constant_condition_two (x y z : KVar) (n : Nat) (H : CMIArgs [x, y] z n) (hz : z.Constant) (p : PNorm)
    (hp : p.ok = true) (k : Nat) (hk : 0 < k) (hkn : k < n) (id : Int) (hid : id = 1 ∨ id = 2) (b : Base) (hb : b.Valid)
    (hpos : id = 1 → ∀ t < n, ∀ ε, IsKthDist n k t (jointDists p.order [x.samples, y.samples] t) ε → 0 < ε) :
    ksgCMI [x, y] (some z) (some 0) false ⟨k, id, p⟩ noNoise none b = ksgMI [x, y] (some 0) false ⟨k, id, p⟩ noNoise b := by
  obtain ⟨v, h1, h2⟩ := C62_constant_condition [x, y] z n H hz p hp k hk hkn id hid b hb hpos
  rw [h1, h2]
  simp

example := C62_constant_condition_two (.one [0, 3]) (.one [1, 5]) (.one [7, 7]) 2 ⟨by simp, by decide, by simp [KVar.len], by simp [KVar.WF, assure2d, Points], rfl, by simp [KVar.WF, assure2d, Points]⟩
  (by intro s hs t ht; simp only [KVar.len, List.length_cons, List.length_nil] at hs ht; interval_cases s <;> interval_cases t <;> rfl)
  .inf rfl 1 (by decide) (by decide) 2 (.inr rfl) .e trivial (by simp)

end Verif
