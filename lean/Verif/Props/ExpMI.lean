import Verif.Lemmas.ExpMI

/-!
# C65: Rényi and Tsallis mutual information

`expMI renyiVal data (some 0) false k order noNoise b` is `mutual_information(*data, approach="renyi", k=k, alpha=order,
noise_level=0, base=b)`, with `tsallisVal` the same for `approach="tsallis"`, `q=order`.
-/

namespace Verif

open Spec

/-- at least two variables with `n` samples each -/
structure MISamples (data : List KVar) (n : Nat) : Prop where
  two : 2 ≤ data.length
  pos : 0 < n
  sample : ∀ v ∈ data, v.Sample n

theorem MISamples.args {data : List KVar} {n : Nat} (H : MISamples data n) : MIArgs data n :=
  ⟨H.two, H.pos, fun v hv => (H.sample v hv).len, fun v hv => (H.sample v hv).wf⟩

theorem MISamples.ne {data : List KVar} {n : Nat} (H : MISamples data n) : data ≠ [] := by
  rintro rfl
  have := H.two
  simp at this

theorem mapIdx_noisyVar (as : List KVar) : as.mapIdx (fun i a => noisyVar (noNoise i) a) = as := by
  refine List.ext_getElem (by simp) fun i h1 h2 => ?_
  simp [noNoise, noisyVar]

theorem expParams_ok {k order : PyArg} {q : ℝ} (hk : k.posInt = true) (ho : order.posNumber = some q) : expParams k order = .ok () := by
  simp [expParams, ho, hk]

theorem expParams_error {k order : PyArg} (h : order.posNumber = none ∨ k.posInt = false) : expParams k order = .error .valueError := by
  unfold expParams
  rcases h with h | h
  · rw [h]
  · cases order.posNumber <;> simp [h]

theorem natPosInt {k : Nat} (hk : 0 < k) : (PyArg.int k).posInt = true := by simp [PyArg.posInt, hk]

/-- the estimator is the combination of entropies, for all parameters -/
theorem expMI_eq {data : List KVar} {n : Nat} (H : MISamples data n) (val : ExpVal) (k order : PyArg) (b : Base) :
    expMI val data (some 0) false k order noNoise b = entropyMI (fun a => expEntropy val a k order b) data := by
  unfold expMI
  rw [kmiInit_zero H.args]
  simp only [bind, Except.bind, mapIdx_noisyVar]
  have he : order.posNumber = none ∨ k.posInt = false → (Except.error Exc.valueError : Except Exc ℝ) =
      entropyMI (fun a => expEntropy val a k order b) data := by
    intro h
    cases hd : data with
    | nil => exact absurd hd H.ne
    | cons v vs => simp only [entropyMI, List.mapM_cons, expInit_other h, bind, Except.bind]
  cases ho : order.posNumber with
  | none => rw [expParams_error (.inl ho)]; exact he (.inl ho)
  | some q =>
    cases hk : k.posInt with
    | false => rw [expParams_error (.inr hk)]; exact he (.inr hk)
    | true => rw [expParams_ok hk ho]

theorem entropyMI_ok {Hf : List KArg → Except Exc ℝ} {data : List KVar} {h : KVar → ℝ} {hj : ℝ}
    (h1 : ∀ v ∈ data, Hf [.arr v] = .ok (h v)) (h2 : Hf [.tup data] = .ok hj) :
    entropyMI Hf data = .ok ((data.map h).sum - hj) := by
  unfold entropyMI
  rw [mapM_ok data h1, h2]
  rfl

/-- **C65** Rényi and Tsallis mutual information is the sum of the marginal entropies less the joint entropy, all of the same
approach and parameters. -/
theorem C65_mi (val : ExpVal) (data : List KVar) (n : Nat) (H : MISamples data n) (k order : PyArg) (b : Base)
    (h : KVar → ℝ) (hj : ℝ) (h1 : ∀ v ∈ data, expEntropy val [.arr v] k order b = .ok (h v))
    (h2 : expEntropy val [.tup data] k order b = .ok hj) :
    expMI val data (some 0) false k order noNoise b = .ok ((data.map h).sum - hj) := by
  rw [expMI_eq H]
  exact entropyMI_ok h1 h2

/-- two variables with two samples each -/
theorem miSamples_example : MISamples [.one [0, 3], .one [0, 4]] 2 :=
  ⟨by decide, by decide, by simpa using ⟨⟨rfl, KVar.wf_one _, Nat.one_pos⟩, ⟨rfl, KVar.wf_one _, Nat.one_pos⟩⟩⟩

theorem miSamples_example_kth : (∀ v ∈ [KVar.one [0, 3], .one [0, 4]], ∀ t < 2, ∀ ε, IsKthDist 2 1 t (dists (some 2) v.samples t) ε → 0 < ε) ∧
    (∀ v ∈ [KVar.one [0, 3], .one [0, 4]], ∃ t < 2, dists (some 2) v.samples t (1 - t) ≠ 0) ∧
    ∃ t < 2, jointDists (some 2) ([KVar.one [0, 3], .one [0, 4]].map KVar.samples) t (1 - t) ≠ 0 := by
  refine ⟨?_, ?_, ?_⟩
  · intro v hv t ht ε hε
    rw [two_kth ht hε]
    simp only [List.mem_cons, List.not_mem_nil, or_false] at hv
    rcases hv with rfl | rfl <;> interval_cases t <;> simp [dists, KVar.samples, assure2d, line_distance]
  · intro v hv
    refine ⟨0, by decide, ?_⟩
    simp only [List.mem_cons, List.not_mem_nil, or_false] at hv
    rcases hv with rfl | rfl <;> simp [dists, KVar.samples, assure2d, line_distance]
  · refine ⟨0, by decide, ?_⟩
    have : (0:ℝ) < Real.sqrt ((0 - 3) ^ 2 + (0 - 4) ^ 2) := by positivity
    simpa only [jointDists, jointSample, KVar.samples, assure2d, List.map_cons, List.map_nil, List.getD_cons_zero,
      List.getD_cons_succ, List.flatten_cons, List.flatten_nil, List.cons_append, List.nil_append, Nat.sub_zero, plane_distance] using this.ne'

/-- distances of the `k`-th neighbours in every variable and in the joint space -/
theorem joint_sample_kth {data : List KVar} (hne : data ≠ []) {n : Nat} (hs : ∀ v ∈ data, v.Sample n) {k : Nat} {ρ : Nat → ℝ}
    (h : ∀ t < n, IsKthDist n k t (jointDists (some 2) (data.map KVar.samples) t) (ρ t)) :
    ∀ t < n, IsKthDist n k t (dists (some 2) (sideBySide n data).samples t) (ρ t) := fun t ht =>
  isKthDist_congr (fun _ hs' => (sideBySide_dists ht hs' _).symm) (h t ht)

theorem sum_map_div_ln {α : Type} (l : List α) (f : α → ℝ) (c : ℝ) : (l.map (fun v => f v / c)).sum = (l.map f).sum / c := by
  simp only [div_eq_mul_inv]
  induction l with
  | nil => simp
  | cons a l ih => simp only [List.map_cons, List.sum_cons, ih]; ring

/-- **C65** Rényi mutual information of order `0 < q < k + 1` in terms of the neighbour distances: `ρ v` those of variable `v`,
`ρj` those of the joint samples. -/
theorem C65_mi_renyi (data : List KVar) (n : Nat) (H : MISamples data n) (k : Nat) (hk : 0 < k) (hkn : k < n) (order : PyArg) (q : ℝ)
    (ho : order.posNumber = some q) (hq : q < k + 1) (b : Base) (hb : b.Valid) (ρ : KVar → Nat → ℝ) (ρj : Nat → ℝ)
    (hρ : ∀ v ∈ data, ∀ t < n, IsKthDist n k t (dists (some 2) v.samples t) (ρ v t))
    (hj : ∀ t < n, IsKthDist n k t (jointDists (some 2) (data.map KVar.samples) t) (ρj t))
    (hex : ∀ v ∈ data, ∃ t < n, ρ v t ≠ 0) (hexj : ∃ t < n, ρj t ≠ 0) :
    expMI renyiVal data (some 0) false (.int k) order noNoise b =
      .ok (((data.map (fun v => renyiNN (n - 1) k v.dim q ((List.range n).map (ρ v)))).sum -
        renyiNN (n - 1) k (data.map KVar.dim).sum q ((List.range n).map ρj)) / b.ln) := by
  obtain ⟨h1, e1⟩ := sideBySide_sample H.ne H.sample
  rw [C65_mi renyiVal data n H (.int k) order b (fun v => renyiNN (n - 1) k v.dim q ((List.range n).map (ρ v)) / b.ln) _
    (fun v hv => C64_renyi v n (H.sample v hv) k hk hkn order q ho hq b hb (ρ v) (hρ v hv) (hex v hv))
    ((expEntropy_joint H.ne H.sample renyiVal _ _ b).trans (C64_renyi _ n h1 k hk hkn order q ho hq b hb ρj (joint_sample_kth H.ne H.sample hj) hexj)),
    e1, sub_div, sum_map_div_ln]

example := C65_mi_renyi [.one [0, 3], .one [0, 4]] 2 miSamples_example 1 (by decide) (by decide) (.num (3 / 2)) (3 / 2)
  (by simp [PyArg.posNumber]) (by norm_num) (.num 2) (by norm_num [Base.Valid]) _ _ (fun _ _ _ ht => two_isKth _ ht)
  (fun _ ht => two_isKth _ ht) miSamples_example_kth.2.1 miSamples_example_kth.2.2

/-- Tsallis, order `q ≠ 1`. -/
theorem C65_mi_tsallis (data : List KVar) (n : Nat) (H : MISamples data n) (k : Nat) (hk : 0 < k) (hkn : k < n) (order : PyArg) (q : ℝ)
    (ho : order.posNumber = some q) (hq1 : q ≠ 1) (hq : q < k + 1) (b : Base) (ρ : KVar → Nat → ℝ) (ρj : Nat → ℝ)
    (hρ : ∀ v ∈ data, ∀ t < n, IsKthDist n k t (dists (some 2) v.samples t) (ρ v t))
    (hj : ∀ t < n, IsKthDist n k t (jointDists (some 2) (data.map KVar.samples) t) (ρj t))
    (hex : ∀ v ∈ data, ∃ t < n, ρ v t ≠ 0) (hexj : ∃ t < n, ρj t ≠ 0) :
    expMI tsallisVal data (some 0) false (.int k) order noNoise b =
      .ok ((data.map (fun v => tsallisNN (n - 1) k v.dim q ((List.range n).map (ρ v)))).sum -
        tsallisNN (n - 1) k (data.map KVar.dim).sum q ((List.range n).map ρj)) := by
  obtain ⟨h1, e1⟩ := sideBySide_sample H.ne H.sample
  rw [C65_mi tsallisVal data n H (.int k) order b (fun v => tsallisNN (n - 1) k v.dim q ((List.range n).map (ρ v))) _
    (fun v hv => C64_tsallis v n (H.sample v hv) k hk hkn order q ho hq1 hq b (ρ v) (hρ v hv) (hex v hv))
    ((expEntropy_joint H.ne H.sample tsallisVal _ _ b).trans (C64_tsallis _ n h1 k hk hkn order q ho hq1 hq b ρj (joint_sample_kth H.ne H.sample hj) hexj)),
    e1]

example := C65_mi_tsallis [.one [0, 3], .one [0, 4]] 2 miSamples_example 1 (by decide) (by decide) (.num (3 / 2)) (3 / 2)
  (by simp [PyArg.posNumber]) (by norm_num) (by norm_num) (.num 2) _ _ (fun _ _ _ ht => two_isKth _ ht)
  (fun _ ht => two_isKth _ ht) miSamples_example_kth.2.1 miSamples_example_kth.2.2

/-! ## Errors -/

/-- Order not a positive number, `k` not a positive integer, fewer than two variables, variables of different lengths, an offset
with more than two variables, or (two variables at offset zero) `k ≥ n`: ValueError. -/
theorem C65_mi_errors (val : ExpVal) (data : List KVar) (o : Int) (nm : Bool) (k order : PyArg) (noise : Nat → Option (Nat → Nat → ℝ))
    (b : Base) :
    (data.length < 2 → expMI val data (some o) nm k order noise b = .error .valueError) ∧
    (2 < data.length → o ≠ 0 → expMI val data (some o) nm k order noise b = .error .valueError) ∧
    (∀ v ∈ data, ∀ w ∈ data, v.len ≠ w.len → expMI val data (some o) nm k order noise b = .error .valueError) ∧
    (∀ n, MISamples data n → (order.posNumber = none ∨ k.posInt = false) → expMI val data (some 0) false k order noise b = .error .valueError) ∧
    (∀ n m : Nat, MISamples data n → n ≤ m → k = .int m → expMI val data (some 0) false k order noNoise b = .error .valueError) := by
  have hinit : ∀ (P : Prop), P → (P → kmiInit data (some o) nm = .error .valueError) → expMI val data (some o) nm k order noise b = .error .valueError := by
    intro P hP h
    simp only [expMI, h hP, bind, Except.bind]
  refine ⟨fun h => hinit _ h fun h => ?_, fun h ho => hinit _ h fun h => ?_, fun v hv w hw h => hinit _ h fun h => ?_, fun n H h => ?_,
    fun n m H hnm hk => ?_⟩
  · simp [kmiInit, h, bind, Except.bind]
  · simp only [kmiInit, bind, Except.bind]
    rw [if_neg (by omega), if_pos ⟨h, by simp [ho]⟩]
  · have hall : data.all (fun d => decide (d.len = (data.headD (.one [])).len)) = false := by
      rw [Bool.eq_false_iff]
      intro h'
      rw [List.all_eq_true] at h'
      exact h ((of_decide_eq_true (h' v hv)).trans (of_decide_eq_true (h' w hw)).symm)
    simp only [kmiInit, bind, Except.bind, hall]
    split_ifs <;> simp_all
  · simp only [expMI, kmiInit_zero H.args, bind, Except.bind, expParams_error h]
  · subst hk
    rw [expMI_eq H]
    cases hd : data with
    | nil => exact absurd hd H.ne
    | cons v vs =>
      have := C64_k_too_large val v n (H.sample v (by simp [hd])) m (lt_of_lt_of_le H.pos hnm) hnm order b
      simp only [entropyMI, List.mapM_cons, this, bind, Except.bind]

example := (C65_mi_errors renyiVal [.one [0, 3], .one [0, 4]] 0 false (.int 2) (.num 2) noNoise .e).2.2.2.2 2 2 miSamples_example le_rfl rfl

/-! ## Invariances -/

theorem entropyMI_map {Hf Hg : List KArg → Except Exc ℝ} {α : Type} {L : List α} {f g : α → KVar}
    (h : ∀ q ∈ L, Hf [.arr (f q)] = Hg [.arr (g q)]) (hj : Hf [.tup (L.map f)] = Hg [.tup (L.map g)]) :
    entropyMI Hf (L.map f) = entropyMI Hg (L.map g) := by
  have : (L.map f).mapM (fun v => Hf [.arr v]) = (L.map g).mapM (fun v => Hg [.arr v]) := by
    rw [List.mapM_map, List.mapM_map]
    clear hj
    induction L with
    | nil => rfl
    | cons q L ih =>
      simp only [List.mapM_cons]
      rw [show ((fun v => Hf [KArg.arr v]) ∘ f) q = ((fun v => Hg [KArg.arr v]) ∘ g) q from h q (by simp), ih fun r hr => h r (by simp [hr])]
  unfold entropyMI
  rw [this, hj]

/-- Rényi and Tsallis entropy of order `q < k + 1` with `k < n` always exist. -/
theorem expEntropy_finite {val : ExpVal} (hval : val = renyiVal ∨ val = tsallisVal) {v : KVar} {n : Nat} (H : v.Sample n) {k : Nat}
    (hk : 0 < k) (hkn : k < n) {order : PyArg} {q : ℝ} (ho : order.posNumber = some q) (hq : q < k + 1) {b : Base} (hb : b.Valid) :
    ∃ h, expEntropy val [.arr v] (.int k) order b = .ok h := by
  obtain ⟨ρ, hρ'⟩ := Sample.exists_kth (p := .num 2) H (by simp [PNorm.ok]) hk hkn
  have hρ : ∀ t < n, IsKthDist n k t (dists (some 2) v.samples t) (ρ t) := fun t ht => (hρ' t ht).2
  by_cases hex : ∃ t < n, ρ t ≠ 0
  · rcases hval with rfl | rfl
    · exact ⟨_, C64_renyi v n H k hk hkn order q ho hq b hb ρ hρ hex⟩
    · by_cases h1 : q = 1
      · subst h1
        exact ⟨_, (C64_tsallis_one _ _ _ ho b).trans (C64_renyi v n H k hk hkn order 1 ho hq b hb ρ hρ hex)⟩
      · exact ⟨_, C64_tsallis v n H k hk hkn order q ho h1 hq b ρ hρ hex⟩
  · push Not at hex
    have := C64_coinciding v n H k hk hkn order q ho hq b hb (fun t ht => by have := hρ t ht; rwa [hex t ht] at this)
    rcases hval with rfl | rfl
    · exact ⟨_, this.1⟩
    · exact ⟨_, this.2⟩

theorem expVal_symmetric {val : ExpVal} (hval : val = renyiVal ∨ val = tsallisVal) : val.Symmetric := by
  rcases hval with rfl | rfl
  · exact renyiVal_symmetric
  · exact tsallisVal_symmetric

/-- entropies of several samples -/
theorem expEntropy_finite_all {val : ExpVal} (hval : val = renyiVal ∨ val = tsallisVal) {data : List KVar} {n : Nat}
    (hs : ∀ v ∈ data, v.Sample n) {k : Nat}
    (hk : 0 < k) (hkn : k < n) {order : PyArg} {q : ℝ} (ho : order.posNumber = some q) (hq : q < k + 1) {b : Base} (hb : b.Valid) :
    ∃ h : KVar → ℝ, ∀ v ∈ data, expEntropy val [.arr v] (.int k) order b = .ok (h v) := by
  have : ∀ v, v ∈ data → ∃ h, expEntropy val [.arr v] (.int k) order b = .ok h := fun v hv =>
    expEntropy_finite hval (hs v hv) hk hkn ho hq hb
  choose! h hh using this
  exact ⟨h, hh⟩

/-- The mutual information of order `q < k + 1` with `k < n` always exists. -/
theorem C65_mi_finite (val : ExpVal) (hval : val = renyiVal ∨ val = tsallisVal) (data : List KVar) (n : Nat) (H : MISamples data n) (k : Nat)
    (hk : 0 < k) (hkn : k < n) (order : PyArg) (q : ℝ) (ho : order.posNumber = some q) (hq : q < k + 1) (b : Base) (hb : b.Valid) :
    ∃ v, expMI val data (some 0) false (.int k) order noNoise b = .ok v := by
  obtain ⟨h, hh⟩ := expEntropy_finite_all hval H.sample hk hkn ho hq hb
  obtain ⟨hj, hhj⟩ := expEntropy_finite hval (sideBySide_sample H.ne H.sample).1 hk hkn ho hq hb
  exact ⟨_, C65_mi val data n H _ _ b h hj hh ((expEntropy_joint H.ne H.sample val _ _ b).trans hhj)⟩

example := C65_mi_finite tsallisVal (.inr rfl) [.one [0, 3], .one [0, 4]] 2 miSamples_example 1 (by decide) (by decide) (.num (3 / 2)) (3 / 2)
  (by simp [PyArg.posNumber]) (by norm_num) (.num 2) (by norm_num [Base.Valid])

/-- **C65** The order of the variables does not matter. -/
theorem C65_mi_order (val : ExpVal) (hval : val = renyiVal ∨ val = tsallisVal) (data data' : List KVar) (hp : data.Perm data') (n : Nat)
    (H : MISamples data n) (k : Nat) (hk : 0 < k) (hkn : k < n) (order : PyArg) (q : ℝ) (ho : order.posNumber = some q) (hq : q < k + 1)
    (b : Base) (hb : b.Valid) :
    ∃ v, expMI val data (some 0) false (.int k) order noNoise b = .ok v ∧ expMI val data' (some 0) false (.int k) order noNoise b = .ok v := by
  have H' : MISamples data' n := ⟨by rw [← hp.length_eq]; exact H.two, H.pos, fun v hv => H.sample v (hp.mem_iff.2 hv)⟩
  obtain ⟨h, hh⟩ := expEntropy_finite_all hval H.sample hk hkn ho hq hb
  obtain ⟨hj, hhj⟩ := expEntropy_finite hval (sideBySide_sample H.ne H.sample).1 hk hkn ho hq hb
  have h2 := (expEntropy_joint H.ne H.sample val _ _ b).trans hhj
  refine ⟨_, C65_mi val data n H _ _ b h hj hh h2, ?_⟩
  rw [C65_mi val data' n H' _ _ b h hj (fun v hv => hh v (hp.mem_iff.2 hv)) ((expEntropy_joint_perm hp H.sample val _ _ b).symm.trans h2),
    (hp.map h).sum_eq]

example := C65_mi_order tsallisVal (.inr rfl) [.one [0, 3], .one [0, 4]] [.one [0, 4], .one [0, 3]] (List.Perm.swap _ _ _) 2 miSamples_example 1
  (by decide) (by decide) (.num (3 / 2)) (3 / 2) (by simp [PyArg.posNumber]) (by norm_num) (.num 2) (by norm_num [Base.Valid])

/-- **C65** Reordering the samples of all variables alike does not matter, whatever the parameters. -/
theorem C65_mi_sample_order (val : ExpVal) (hval : val = renyiVal ∨ val = tsallisVal) (data : List KVar) (n : Nat) (H : MISamples data n)
    (σ : List Nat) (hσ : σ.Perm (List.range n)) (k order : PyArg) (b : Base) (hb : b.Valid) :
    expMI val (data.map (KVar.reorder σ)) (some 0) false k order noNoise b = expMI val data (some 0) false k order noNoise b := by
  have H' : MISamples (data.map (KVar.reorder σ)) n := by
    refine ⟨by simpa using H.two, H.pos, fun v hv => ?_⟩
    obtain ⟨u, hu, rfl⟩ := List.mem_map.1 hv
    exact (reorder_sample (H.sample u hu) hσ).1
  rw [expMI_eq H, expMI_eq H']
  have := entropyMI_map (Hf := fun a => expEntropy val a k order b) (Hg := fun a => expEntropy val a k order b) (L := data)
    (f := KVar.reorder σ) (g := id)
    (fun v hv => expEntropy_reorder (H.sample v hv) hσ (expVal_symmetric hval) k order hb) (by
      rw [List.map_id]
      exact expEntropy_joint_reorder H.ne H.sample hσ (expVal_symmetric hval) k order hb)
  rwa [List.map_id] at this

example := C65_mi_sample_order renyiVal (.inl rfl) [.one [0, 3], .one [0, 4]] 2 miSamples_example [1, 0] (by decide) (.int 1) (.int 1) (.num 2)
  (by norm_num [Base.Valid])

/-! ### Shifts and common scaling -/

theorem affine_samples_all {L : List (KVar × (Nat → ℝ))} {n : Nat} (hs : ∀ q ∈ L, q.1.Sample n) (c : ℝ) :
    ∀ v ∈ L.map (fun q => q.1.affine c q.2), v.Sample n := by
  intro v hv
  obtain ⟨q, hq, rfl⟩ := List.mem_map.1 hv
  exact (Sample.affine (hs q hq) c q.2).1

theorem jointDists_affine_two {L : List (KVar × (Nat → ℝ))} {n : Nat} (hs : ∀ q ∈ L, q.1.Sample n) {c : ℝ} (hc : c ≠ 0)
    {t s : Nat} (ht : t < n) (hs' : s < n) :
    jointDists (some 2) ((L.map (fun q => q.1.affine c q.2)).map KVar.samples) t s =
      |c| * jointDists (some 2) ((L.map Prod.fst).map KVar.samples) t s := by
  have := jointDists_affine (p := .num 2) (by simp [PNorm.ok]) hc L (fun q hq => (hs q hq).len) (fun q hq => (hs q hq).wf) ht hs'
  rw [List.map_map, List.map_map]
  exact this

theorem affine_dims (L : List (KVar × (Nat → ℝ))) (c : ℝ) :
    ((L.map (fun q => q.1.affine c q.2)).map KVar.dim) = ((L.map Prod.fst).map KVar.dim) := by
  simp only [List.map_map]
  refine List.map_congr_left fun q _ => ?_
  cases h : q.1 <;> simp [h, Function.comp, KVar.affine, KVar.dim, assure2d]

/-- **C65** Shifting every column of every variable by its own offset changes nothing, for every approach and all parameters. -/
theorem C65_mi_shift (val : ExpVal) (L : List (KVar × (Nat → ℝ))) (n : Nat) (H : MISamples (L.map Prod.fst) n) (k order : PyArg) (b : Base) :
    expMI val (L.map (fun q => q.1.affine 1 q.2)) (some 0) false k order noNoise b =
      expMI val (L.map Prod.fst) (some 0) false k order noNoise b := by
  have hs : ∀ q ∈ L, q.1.Sample n := fun q hq => H.sample _ (List.mem_map.2 ⟨q, hq, rfl⟩)
  have hL : L ≠ [] := by
    rintro rfl
    exact H.ne rfl
  have H' : MISamples (L.map (fun q => q.1.affine 1 q.2)) n := ⟨by simpa using H.two, H.pos, affine_samples_all hs 1⟩
  rw [expMI_eq H, expMI_eq H']
  refine entropyMI_map (fun q hq => ?_) ?_
  · obtain ⟨h1, h2⟩ := Sample.affine (hs q hq) 1 q.2
    refine expEntropy_congr h1 (hs q hq) h2 (fun t ht s hs' => ?_) val k order b
    have := dists_affine (p := .num 2) (hs q hq) (by simp [PNorm.ok]) 1 one_ne_zero q.2 ht hs'
    rw [abs_one, one_mul] at this
    exact this
  · refine expEntropy_joint_congr (by simpa using hL) (by simpa using hL) (affine_samples_all hs 1) H.sample (by rw [affine_dims])
      (fun t ht s hs' => ?_) val k order b
    rw [jointDists_affine_two hs one_ne_zero ht hs', abs_one, one_mul]

example := C65_mi_shift renyiVal [(.one [0, 3], fun _ => 7), (.one [0, 4], fun _ => -1)] 2 miSamples_example (.int 1) (.int 1) .e

/-- scaled distances: the Rényi entropy grows by `d log c` -/
theorem renyi_scaled {v w : KVar} {n : Nat} (H : v.Sample n) (H' : w.Sample n) (hdim : w.dim = v.dim) {c : ℝ} (hc : 0 < c)
    (hd : ∀ t < n, ∀ s < n, dists (some 2) w.samples t s = c * dists (some 2) v.samples t s) {k : Nat} (hk : 0 < k) (hkn : k < n)
    {order : PyArg} {q : ℝ} (ho : order.posNumber = some q) (hq : q < k + 1) {b : Base} (hb : b.Valid)
    (hpos : ∀ t < n, ∀ ε, IsKthDist n k t (dists (some 2) v.samples t) ε → 0 < ε) :
    ∃ h, expEntropy renyiVal [.arr v] (.int k) order b = .ok h ∧
      expEntropy renyiVal [.arr w] (.int k) order b = .ok (h + v.dim * (Real.log c / b.ln)) := by
  obtain ⟨ρ, hρ'⟩ := Sample.exists_kth (p := .num 2) H (by simp [PNorm.ok]) hk hkn
  have hρ : ∀ t < n, IsKthDist n k t (dists (some 2) v.samples t) (ρ t) := fun t ht => (hρ' t ht).2
  have h0 : ∀ t < n, ρ t ≠ 0 := fun t ht => (hpos t ht _ (hρ t ht)).ne'
  have hn : 0 < n := by omega
  refine ⟨_, C64_renyi v n H k hk hkn order q ho hq b hb ρ hρ ⟨0, hn, h0 0 hn⟩, ?_⟩
  rw [C64_renyi w n H' k hk hkn order q ho hq b hb (fun t => c * ρ t) (fun t ht =>
    isKthDist_congr (fun s hs => (hd t ht s hs).symm) (isKthDist_smul hc (hρ t ht))) ⟨0, hn, mul_ne_zero hc.ne' (h0 0 hn)⟩, hdim,
    ← mul_div_assoc, ← add_div]
  congr 2
  have := renyiNN_scale hk H.dim hq (pred_pos hk hkn) hc (rho_nonneg hρ) ⟨ρ 0, List.mem_map.2 ⟨0, List.mem_range.2 hn, rfl⟩, h0 0 hn⟩
    (fun h r hr => by
      obtain ⟨s, hs, rfl⟩ := List.mem_map.1 hr
      exact h0 s (List.mem_range.1 hs))
  rw [List.map_map] at this
  rw [add_comm]
  exact this

/-- a joint neighbour distance is positive when one variable's is -/
theorem joint_kth_pos {data : List KVar} {n : Nat} (hs : ∀ v ∈ data, v.Sample n) {v : KVar} (hv : v ∈ data) {k : Nat}
    (hpos : ∀ t < n, ∀ ε, IsKthDist n k t (dists (some 2) v.samples t) ε → 0 < ε) (hk : 0 < k) (hkn : k < n) :
    ∀ t < n, ∀ ε, IsKthDist n k t (jointDists (some 2) (data.map KVar.samples) t) ε → 0 < ε := by
  intro t ht ε hε
  have ha : Aligned n (data.map assure2d) := by
    intro a ha
    obtain ⟨u, hu, rfl⟩ := List.mem_map.1 ha
    exact arr_aligned (hs u hu).len (hs u hu).wf
  obtain ⟨ρ, hρ'⟩ := Sample.exists_kth (p := .num 2) (hs v hv) (by simp [PNorm.ok]) hk hkn
  have h1 := (hρ' t ht).2
  have h2 := hpos t ht _ h1
  by_contra hneg
  push Not at hneg
  -- at least `k` other samples within `ε ≤ 0` jointly, hence also in `v`
  have h3 : within n t (jointDists (some 2) (data.map KVar.samples) t) ε ≤ below n t (dists (some 2) v.samples t) (ρ t) := by
    unfold within below
    have hlt : ∀ s ∈ List.range n, jointDists (some 2) (data.map KVar.samples) t s ≤ ε → dists (some 2) v.samples t s < ρ t := by
      intro s hs' hle
      have := dists_le_joint (p := .num 2) (by simp [PNorm.ok]) ha (List.mem_map.2 ⟨v, hv, rfl⟩) ht (List.mem_range.1 hs')
      rw [samples_eq] at this
      exact lt_of_le_of_lt (le_trans this (le_trans hle hneg)) h2
    rw [← List.countP_eq_length_filter, ← List.countP_eq_length_filter]
    refine List.countP_mono_left fun s hs' h => ?_
    have h := of_decide_eq_true h
    exact decide_eq_true ⟨h.1, hlt s hs' h.2⟩
  have h4 := hε.2.2
  have h5 : below n t (dists (some 2) v.samples t) (ρ t) < k := h1.2.1
  omega

/-- **C65** Rényi mutual information does not change when all variables are scaled by the same factor `c ≠ 0` and every column is
shifted (no coinciding `k`-th neighbours in any variable). -/
theorem C65_mi_renyi_scale (L : List (KVar × (Nat → ℝ))) (n : Nat) (H : MISamples (L.map Prod.fst) n) (c : ℝ) (hc : c ≠ 0) (k : Nat)
    (hk : 0 < k) (hkn : k < n) (order : PyArg) (q : ℝ) (ho : order.posNumber = some q) (hq : q < k + 1) (b : Base) (hb : b.Valid)
    (hpos : ∀ v ∈ L.map Prod.fst, ∀ t < n, ∀ ε, IsKthDist n k t (dists (some 2) v.samples t) ε → 0 < ε) :
    ∃ v, expMI renyiVal (L.map Prod.fst) (some 0) false (.int k) order noNoise b = .ok v ∧
      expMI renyiVal (L.map (fun q => q.1.affine c q.2)) (some 0) false (.int k) order noNoise b = .ok v := by
  have hc' : 0 < |c| := abs_pos.2 hc
  have hs : ∀ q ∈ L, q.1.Sample n := fun q hq => H.sample _ (List.mem_map.2 ⟨q, hq, rfl⟩)
  have hL : L ≠ [] := by
    rintro rfl
    exact H.ne rfl
  have H' : MISamples (L.map (fun q => q.1.affine c q.2)) n := ⟨by simpa using H.two, H.pos, affine_samples_all hs c⟩
  have h1 : ∀ r, r ∈ L → ∃ h, expEntropy renyiVal [.arr r.1] (.int k) order b = .ok h ∧
      expEntropy renyiVal [.arr (r.1.affine c r.2)] (.int k) order b = .ok (h + r.1.dim * (Real.log |c| / b.ln)) := fun r hr => by
    obtain ⟨a1, a2⟩ := Sample.affine (hs r hr) c r.2
    exact renyi_scaled (hs r hr) a1 a2 hc' (fun t ht s hs' => dists_affine (p := .num 2) (hs r hr) (by simp [PNorm.ok]) c hc r.2 ht hs') hk hkn
      ho hq hb (hpos _ (List.mem_map.2 ⟨r, hr, rfl⟩))
  choose! h hh using h1
  obtain ⟨r0, hr0⟩ := List.exists_mem_of_ne_nil L hL
  have hm0 : r0.1 ∈ L.map Prod.fst := List.mem_map.2 ⟨r0, hr0, rfl⟩
  obtain ⟨j1, e1⟩ := sideBySide_sample H.ne H.sample
  obtain ⟨j2, e2⟩ := sideBySide_sample H'.ne H'.sample
  obtain ⟨hj, g1, g2⟩ := renyi_scaled j1 j2 (by rw [e1, e2, affine_dims]) hc' (fun t ht s hs' => by
      rw [sideBySide_dists ht hs', sideBySide_dists ht hs', jointDists_affine_two hs hc ht hs']) hk hkn ho hq hb (fun t ht ε hε =>
      joint_kth_pos H.sample hm0 (hpos _ hm0) hk hkn t ht ε (isKthDist_congr (fun s hs' => sideBySide_dists ht hs' _) hε))
  have k1 : ∀ f : KVar × (Nat → ℝ) → KVar, ∀ g : KVar × (Nat → ℝ) → ℝ, ∀ hj, L.map f ≠ [] → 
      (∀ r ∈ L, expEntropy renyiVal [.arr (f r)] (.int k) order b = .ok (g r)) →
      expEntropy renyiVal [.tup (L.map f)] (.int k) order b = .ok hj →
      entropyMI (fun a => expEntropy renyiVal a (.int k) order b) (L.map f) = .ok ((L.map g).sum - hj) := by
    intro f g hj _ a1 a2
    unfold entropyMI
    have e := mapM_ok (f := (fun v => (fun a => expEntropy renyiVal a (.int k) order b) [KArg.arr v]) ∘ f) (g := g) L (fun r hr => a1 r hr)
    rw [List.mapM_map, e]
    simp only [bind, Except.bind, a2]
    rfl
  refine ⟨(L.map h).sum - hj, ?_, ?_⟩
  · rw [expMI_eq H, k1 Prod.fst h hj H.ne (fun r hr => (hh r hr).1) ((expEntropy_joint H.ne H.sample renyiVal _ _ b).trans g1)]
  · rw [expMI_eq H', k1 (fun q => q.1.affine c q.2) _ _ H'.ne (fun r hr => (hh r hr).2)
      ((expEntropy_joint H'.ne H'.sample renyiVal _ _ b).trans g2), e1]
    congr 1
    have : (L.map (fun r => h r + r.1.dim * (Real.log |c| / b.ln))).sum = (L.map h).sum +
        (((L.map Prod.fst).map KVar.dim).sum : ℝ) * (Real.log |c| / b.ln) := by
      clear k1 g1 g2 hj j1 j2 e1 e2 H H' hh hs hL hr0 hpos hm0
      induction L with
      | nil => simp
      | cons r L ih =>
        simp only [List.map_cons, List.sum_cons, ih]
        push_cast
        ring
    rw [this]
    push_cast
    ring

example := C65_mi_renyi_scale [(.one [0, 3], fun _ => 7), (.one [0, 4], fun _ => -1)] 2 miSamples_example (-2) (by norm_num) 1 (by decide)
  (by decide) (.num (3 / 2)) (3 / 2) (by simp [PyArg.posNumber]) (by norm_num) (.num 2) (by norm_num [Base.Valid]) miSamples_example_kth.1

/-- Order `k + 1`: every entropy is 0, and so is the mutual information, whatever the data. -/
theorem C65_mi_order_k_plus_one (val : ExpVal) (hval : val = renyiVal ∨ val = tsallisVal) (data : List KVar) (n : Nat) (H : MISamples data n)
    (k : Nat) (hk : 0 < k) (hkn : k < n) (order : PyArg) (ho : order.posNumber = some ((k : ℝ) + 1)) (b : Base) :
    expMI val data (some 0) false (.int k) order noNoise b = .ok 0 := by
  have h : ∀ v : KVar, v.Sample n → expEntropy val [.arr v] (.int k) order b = .ok 0 := by
    intro v hv
    have := C64_order_k_plus_one v n hv k hk hkn order ho b
    rcases hval with rfl | rfl
    exacts [this.1, this.2]
  rw [C65_mi val data n H _ _ b (fun _ => 0) 0 (fun v hv => h v (H.sample v hv))
    ((expEntropy_joint H.ne H.sample val _ _ b).trans (h _ (sideBySide_sample H.ne H.sample).1))]
  simp

example := C65_mi_order_k_plus_one renyiVal (.inl rfl) [.one [0, 3], .one [0, 4]] 2 miSamples_example 1 (by decide) (by decide) (.num 2)
  (by norm_num [PyArg.posNumber]) .e

/-- Tsallis mutual information of order other than one does not depend on the base. -/
theorem C65_mi_tsallis_base (data : List KVar) (n : Nat) (H : MISamples data n) (k order : PyArg) (q : ℝ) (ho : order.posNumber = some q)
    (hq1 : q ≠ 1) (b b' : Base) :
    expMI tsallisVal data (some 0) false k order noNoise b = expMI tsallisVal data (some 0) false k order noNoise b' := by
  rw [expMI_eq H, expMI_eq H]
  have : ∀ a, expEntropy tsallisVal a k order b = expEntropy tsallisVal a k order b' := by
    intro a
    have hv : ∀ k' parts N, tsallisVal k' q parts N b = tsallisVal k' q parts N b' := by
      intro k' parts N
      simp [tsallisVal, hq1]
    have key : ∀ i, expInit a k order = .ok i → i.2.2 = q := by
      intro i hi
      unfold expInit at hi
      simp only [bind, Except.bind, ho] at hi
      split at hi <;> (try split_ifs at hi) <;> cases hi <;> rfl
    unfold expEntropy
    cases hi : expInit a k order with
    | error e => rfl
    | ok i =>
      simp only [bind, Except.bind]
      rw [key i hi]
      split <;> simp only [hv]
  simp only [this]

example := C65_mi_tsallis_base [.one [0, 3], .one [0, 4]] 2 miSamples_example (.int 1) (.num 2) 2 (by simp [PyArg.posNumber]) (by norm_num) .e (.num 2)

/-- Noise enters only through the data: the estimate is that of the perturbed variables. -/
theorem C65_mi_noise (val : ExpVal) (data : List KVar) (n : Nat) (H : MISamples data n) (k order : PyArg)
    (noise : Nat → Option (Nat → Nat → ℝ)) (b : Base) :
    expMI val data (some 0) false k order noise b =
      expMI val (data.mapIdx (fun i v => noisyVar (noise i) v)) (some 0) false k order noNoise b ∧
    MISamples (data.mapIdx (fun i v => noisyVar (noise i) v)) n := by
  have H' : MISamples (data.mapIdx (fun i v => noisyVar (noise i) v)) n := by
    refine ⟨by simpa using H.two, H.pos, fun v hv => ?_⟩
    obtain ⟨i, hi, rfl⟩ := List.mem_mapIdx.1 hv
    have h := H.sample data[i] (List.getElem_mem hi)
    cases he : noise i with
    | none => exact h
    | some e =>
      have hw := noisy_wf (some e) h.wf
      have hl := noisy_len (some e) data[i]
      exact ⟨by rw [show (noisyVar (some e) data[i]) = data[i].noisy (some e) from rfl, hl, h.len], hw, h.dim⟩
  refine ⟨?_, H'⟩
  unfold expMI
  rw [kmiInit_zero H.args, kmiInit_zero H'.args]
  simp only [bind, Except.bind, mapIdx_noisyVar]

example := C65_mi_noise renyiVal [.one [0, 3], .one [0, 4]] 2 miSamples_example (.int 1) (.num 2) (fun _ => some (fun i _ => i)) .e

end Verif
