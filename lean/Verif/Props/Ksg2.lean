import Verif.Lemmas.Knn3
import Verif.Props.Ksg

/-!
# C51, continued: invariance and bounds of KSG mutual information
-/

namespace Verif

open Spec

/-- `x[σ]`: samples in the order `σ` -/
def KVar.reorder (σ : List Nat) : KVar → KVar
  | .one xs => .one (σ.map (fun t => xs.getD t 0))
  | .two a => .two ⟨a.cols, σ.map (fun t => a.rows.getD t [])⟩

/-- `c * x + o`, with an offset per column -/
def KVar.affine (c : ℝ) (o : Nat → ℝ) : KVar → KVar
  | .one xs => .one (xs.map (fun x => c * x + o 0))
  | .two a => .two ⟨a.cols, a.rows.map (fun r => r.mapIdx (fun j x => c * x + o j))⟩

/-- the perturbed variable `x + noise` -/
def KVar.noisy (e : Option (Nat → Nat → ℝ)) (v : KVar) : KVar := .two (jitter e (assure2d v))

theorem exists_kth {data : List KVar} {n : Nat} (H : MIArgs data n) {p : PNorm} (hp : p.ok = true) {k : Nat} (hk : 0 < k)
    (hkn : k < n) : ∃ ε : Nat → ℝ, ∀ t < n, IsKthDist n k t (jointDists p.order (data.map KVar.samples) t) (ε t) := by
  have := fun t ht => (C51_kth_distance data n H p hp k hk hkn t ht).exists
  choose! ε hε using this
  exact ⟨ε, hε⟩

/-- two data sets with the same sample size and number of variables have equal KSG values when the neighbour structures agree -/
theorem ksg_transfer {data data' : List KVar} {n : Nat} (H : MIArgs data n) (H' : MIArgs data' n) (cfg : KsgCfg)
    (hp : cfg.p.ok = true) (hid : cfg.ksgId = 1 ∨ cfg.ksgId = 2) (hk : 0 < cfg.k) {b : Base} (hb : b.Valid)
    (key : ∀ ε : Nat → ℝ, (∀ t < n, IsKthDist n cfg.k t (jointDists cfg.p.order (data.map KVar.samples) t) (ε t)) →
      ∃ ε' : Nat → ℝ, (∀ t < n, IsKthDist n cfg.k t (jointDists cfg.p.order (data'.map KVar.samples) t) (ε' t)) ∧
        mean ((List.range n).map (fun t => ksgVal cfg n (data.map KVar.samples) t (ε t))) =
          mean ((List.range n).map (fun t => ksgVal cfg n (data'.map KVar.samples) t (ε' t)))) :
    ∃ v, ksgMI data (some 0) false cfg noNoise b = .ok v ∧ ksgMI data' (some 0) false cfg noNoise b = .ok v := by
  rcases Nat.lt_or_ge cfg.k n with hkn | hkn
  · obtain ⟨ε, hε⟩ := exists_kth H hp hk hkn
    obtain ⟨ε', hε', e⟩ := key ε hε
    refine ⟨_, ksgMI_val data n H cfg hp hid hk hkn b hb ε hε, ?_⟩
    rw [ksgMI_val data' n H' cfg hp hid hk hkn b hb ε' hε', e]
  · obtain ⟨k, id, p⟩ := cfg
    rcases hid with h | h
    · simp only at h; subst h
      exact ⟨_, (C51_k_too_large data n H p k hkn b hb).1, (C51_k_too_large data' n H' p k hkn b hb).1⟩
    · simp only at h; subst h
      exact ⟨_, (C51_k_too_large data n H p k hkn b hb).2, (C51_k_too_large data' n H' p k hkn b hb).2⟩

theorem MIArgs.perm {data data' : List KVar} {n : Nat} (H : MIArgs data n) (hp : data.Perm data') : MIArgs data' n :=
  ⟨by rw [← hp.length_eq]; exact H.two, H.pos, fun v hv => H.len v (hp.mem_iff.2 hv), fun v hv => H.wf v (hp.mem_iff.2 hv)⟩

/-- The order of the variables does not matter. -/
theorem C51_order (data data' : List KVar) (hperm : data.Perm data') (n : Nat) (H : MIArgs data n) (p : PNorm) (hp : p.ok = true)
    (k : Nat) (hk : 0 < k) (id : Int) (hid : id = 1 ∨ id = 2) (b : Base) (hb : b.Valid) :
    ∃ v, ksgMI data (some 0) false ⟨k, id, p⟩ noNoise b = .ok v ∧ ksgMI data' (some 0) false ⟨k, id, p⟩ noNoise b = .ok v := by
  refine ksg_transfer H (H.perm hperm) ⟨k, id, p⟩ hp hid hk hb fun ε hε => ⟨ε, fun t ht => ?_, ?_⟩
  · refine isKthDist_congr (fun s hs => ?_) (hε t ht)
    rw [← samples_eq, ← samples_eq]
    exact jointDists_perm H.aligned (hperm.map assure2d) ht hs
  · congr 1
    refine List.map_congr_left fun t _ => ?_
    unfold ksgVal
    rw [((hperm.map KVar.samples).map _).sum_eq, List.length_map, List.length_map, hperm.length_eq]

example := C51_order [.one [0, 1, 3], .one [2, 2, 0]] [.one [2, 2, 0], .one [0, 1, 3]] (List.Perm.swap _ _ _) 3 ⟨by simp, by decide, by simp [KVar.len], by simp [KVar.WF, assure2d, Points]⟩ .inf rfl 2 (by decide) 1 (.inl rfl) .e trivial

theorem reorder_samples {σ : List Nat} {n : Nat} (hσ : σ.Perm (List.range n)) {v : KVar} (hv : v.len = n) {t : Nat} (ht : t < n) :
    (v.reorder σ).samples.getD t [] = v.samples.getD (σ.getD t 0) [] := by
  have hlen : σ.length = n := by rw [hσ.length_eq, List.length_range]
  have ht' : t < σ.length := by omega
  have hlt : σ[t] < n := List.mem_range.1 (hσ.mem_iff.1 (List.getElem_mem ht'))
  cases v with
  | one xs =>
    have hv' : xs.length = n := hv
    have h2 : σ[t] < xs.length := by omega
    simp [KVar.reorder, KVar.samples, assure2d, List.getD_eq_getElem?_getD, ht', h2]
  | two a =>
    simp [KVar.reorder, KVar.samples, assure2d, List.getD_eq_getElem?_getD, ht']

theorem reorder_len {σ : List Nat} {n : Nat} (hσ : σ.Perm (List.range n)) (v : KVar) : (v.reorder σ).len = n := by
  have hlen : σ.length = n := by rw [hσ.length_eq, List.length_range]
  cases v <;> simp [KVar.reorder, KVar.len, hlen]

theorem reorder_wf {σ : List Nat} {n : Nat} (hσ : σ.Perm (List.range n)) {v : KVar} (hv : v.len = n) (hw : v.WF) :
    (v.reorder σ).WF := by
  cases v with
  | one xs => exact KVar.wf_one _
  | two a =>
    intro x hx
    simp only [KVar.reorder, assure2d] at hx ⊢
    obtain ⟨t, ht, rfl⟩ := List.mem_map.1 hx
    exact rows_getD_length (n := n) hv hw (List.mem_range.1 (hσ.mem_iff.1 ht))

theorem MIArgs.reorder {data : List KVar} {n : Nat} (H : MIArgs data n) {σ : List Nat} (hσ : σ.Perm (List.range n)) :
    MIArgs (data.map (KVar.reorder σ)) n := by
  refine ⟨by simpa using H.two, H.pos, ?_, ?_⟩
  · intro v hv
    obtain ⟨u, hu, rfl⟩ := List.mem_map.1 hv
    exact reorder_len hσ u
  · intro v hv
    obtain ⟨u, hu, rfl⟩ := List.mem_map.1 hv
    exact reorder_wf hσ (H.len u hu) (H.wf u hu)

theorem perm_index {σ : List Nat} {n : Nat} (hσ : σ.Perm (List.range n)) :
    ((List.range n).map (fun t => σ.getD t 0)).Perm (List.range n) := by
  have hlen : σ.length = n := by rw [hσ.length_eq, List.length_range]
  rw [← list_eq_range σ 0 hlen]
  exact hσ

theorem mean_perm {α : Type} {l l' : List α} (h : l.Perm l') (f : α → ℝ) : mean (l.map f) = mean (l'.map f) := by
  unfold mean
  rw [(h.map f).sum_eq, (h.map f).length_eq]

theorem jointSample_reorder {σ : List Nat} {n : Nat} (hσ : σ.Perm (List.range n)) {data : List KVar} (hl : ∀ v ∈ data, v.len = n)
    {t : Nat} (ht : t < n) :
    jointSample ((data.map (KVar.reorder σ)).map KVar.samples) t = jointSample (data.map KVar.samples) (σ.getD t 0) := by
  unfold jointSample
  rw [List.map_map, List.map_map, List.map_map]
  congr 1
  refine List.map_congr_left fun v hv => ?_
  simp only [Function.comp]
  exact reorder_samples hσ (hl v hv) ht

theorem ksgCount_relabel {id : Int} {n : Nat} {f : Nat → Nat} (hf : ((List.range n).map f).Perm (List.range n)) {t : Nat} (ht : t < n)
    (δ : Nat → ℝ) (ε : ℝ) : ksgCount id n t (fun s => δ (f s)) ε = ksgCount id n (f t) δ ε := by
  unfold ksgCount
  rw [below_relabel hf ht, within_relabel hf ht]

/-- The order of the samples does not matter, as long as all variables are reordered alike. -/
theorem C51_sample_order (data : List KVar) (n : Nat) (H : MIArgs data n) (σ : List Nat) (hσ : σ.Perm (List.range n)) (p : PNorm)
    (hp : p.ok = true) (k : Nat) (hk : 0 < k) (id : Int) (hid : id = 1 ∨ id = 2) (b : Base) (hb : b.Valid) :
    ∃ v, ksgMI data (some 0) false ⟨k, id, p⟩ noNoise b = .ok v ∧
      ksgMI (data.map (KVar.reorder σ)) (some 0) false ⟨k, id, p⟩ noNoise b = .ok v := by
  have hf := perm_index hσ
  have hlt : ∀ t < n, σ.getD t 0 < n := fun t ht =>
    List.mem_range.1 (hf.mem_iff.1 (List.mem_map.2 ⟨t, List.mem_range.2 ht, rfl⟩))
  refine ksg_transfer H (H.reorder hσ) ⟨k, id, p⟩ hp hid hk hb fun ε hε => ⟨fun t => ε (σ.getD t 0), fun t ht => ?_, ?_⟩
  · refine isKthDist_congr (fun s hs => ?_) (isKthDist_relabel hf ht (hε _ (hlt t ht)))
    unfold jointDists
    rw [jointSample_reorder hσ H.len ht, jointSample_reorder hσ H.len hs]
  · have e : (List.range n).map (fun t => ksgVal ⟨k, id, p⟩ n ((data.map (KVar.reorder σ)).map KVar.samples) t (ε (σ.getD t 0))) =
        ((List.range n).map (fun t => σ.getD t 0)).map (fun t => ksgVal ⟨k, id, p⟩ n (data.map KVar.samples) t (ε t)) := by
      conv_rhs => rw [List.map_map]
      refine List.map_congr_left fun t ht => ?_
      have ht' := List.mem_range.1 ht
      simp only [Function.comp]
      unfold ksgVal
      rw [List.length_map, List.length_map, List.length_map]
      congr 2
      rw [List.map_map, List.map_map, List.map_map]
      congr 1
      refine List.map_congr_left fun v hv => ?_
      simp only [Function.comp]
      rw [← ksgCount_relabel hf ht']
      congr 2
      refine ksgCount_congr (fun s hs => ?_) _
      unfold dists
      rw [reorder_samples hσ (H.len v hv) ht', reorder_samples hσ (H.len v hv) hs]
    rw [e, mean_perm hf]

example := C51_sample_order [.one [0, 1, 3, 2], .two ⟨2, [[0, 1], [1, 1], [3, 0], [2, 2]]⟩] 4 ⟨by simp, by decide, by simp [KVar.len], by simp [KVar.WF, assure2d, Points]⟩ [2, 0, 3, 1] (by decide) .inf rfl 2 (by decide) 1 (.inl rfl) .e trivial

theorem absDiffs_affine (c : ℝ) (o : Nat → ℝ) (x y : List ℝ) :
    absDiffs (x.mapIdx (fun j a => c * a + o j)) (y.mapIdx (fun j a => c * a + o j)) = (absDiffs x y).map (fun a => |c| * a) := by
  unfold absDiffs
  refine List.ext_getElem (by simp) fun i h1 h2 => ?_
  simp only [List.getElem_zipWith, List.getElem_mapIdx, List.getElem_map]
  rw [← abs_mul]
  congr 1
  ring

theorem affine_samples (c : ℝ) (o : Nat → ℝ) (v : KVar) (t : Nat) (ht : t < v.len) :
    (v.affine c o).samples.getD t [] = (v.samples.getD t []).mapIdx (fun j a => c * a + o j) := by
  cases v with
  | one xs =>
    have h : t < xs.length := ht
    simp [KVar.affine, KVar.samples, assure2d, List.getD_eq_getElem?_getD, h]
  | two a =>
    have h : t < a.rows.length := ht
    simp [KVar.affine, KVar.samples, assure2d, List.getD_eq_getElem?_getD, h]

theorem affine_len (c : ℝ) (o : Nat → ℝ) (v : KVar) : (v.affine c o).len = v.len := by
  cases v <;> simp [KVar.affine, KVar.len]

theorem affine_wf (c : ℝ) (o : Nat → ℝ) {v : KVar} (hw : v.WF) : (v.affine c o).WF := by
  cases v with
  | one xs => exact KVar.wf_one _
  | two a =>
    intro x hx
    simp only [KVar.affine, assure2d] at hx ⊢
    obtain ⟨r, hr, rfl⟩ := List.mem_map.1 hx
    rw [List.length_mapIdx]
    exact hw r hr

theorem arr_aligned {v : KVar} {n : Nat} (hl : v.len = n) (hw : v.WF) :
    (assure2d v).rows.length = n ∧ Points (assure2d v).rows (assure2d v).cols := ⟨by rw [KVar.len_rows, hl], hw⟩

/-- Scaling all variables by the same non-zero factor and shifting every column by its own offset changes nothing. -/
theorem C51_affine (L : List (KVar × (Nat → ℝ))) (n : Nat) (H : MIArgs (L.map Prod.fst) n) (c : ℝ) (hc : c ≠ 0) (p : PNorm)
    (hp : p.ok = true) (k : Nat) (hk : 0 < k) (id : Int) (hid : id = 1 ∨ id = 2) (b : Base) (hb : b.Valid) :
    ∃ v, ksgMI (L.map Prod.fst) (some 0) false ⟨k, id, p⟩ noNoise b = .ok v ∧
      ksgMI (L.map (fun q => q.1.affine c q.2)) (some 0) false ⟨k, id, p⟩ noNoise b = .ok v := by
  have hc' : 0 < |c| := abs_pos.2 hc
  have hl : ∀ q ∈ L, q.1.len = n := fun q hq => H.len _ (List.mem_map.2 ⟨q, hq, rfl⟩)
  have hw : ∀ q ∈ L, q.1.WF := fun q hq => H.wf _ (List.mem_map.2 ⟨q, hq, rfl⟩)
  have H' : MIArgs (L.map (fun q => q.1.affine c q.2)) n := by
    refine ⟨by simpa using H.two, H.pos, ?_, ?_⟩
    · intro v hv
      obtain ⟨q, hq, rfl⟩ := List.mem_map.1 hv
      rw [affine_len, hl q hq]
    · intro v hv
      obtain ⟨q, hq, rfl⟩ := List.mem_map.1 hv
      exact affine_wf c q.2 (hw q hq)
  refine ksg_transfer H H' ⟨k, id, p⟩ hp hid hk hb fun ε hε => ⟨fun t => |c| * ε t, fun t ht => ?_, ?_⟩
  · refine isKthDist_congr (fun s hs => ?_) (isKthDist_smul hc' (hε t ht))
    rw [← samples_eq, ← samples_eq, jointDists_eq H.aligned ht hs, jointDists_eq H'.aligned ht hs, ← normOf_smul hp hc'.le (by
      intro x hx
      rw [List.mem_flatten] at hx
      obtain ⟨l, hL, hx⟩ := hx
      obtain ⟨b, _, rfl⟩ := List.mem_map.1 hL
      exact absDiffs_nonneg _ _ x hx), List.map_flatten]
    congr 2
    simp only [List.map_map]
    refine List.map_congr_left fun q hq => ?_
    simp only [Function.comp]
    have e := fun u hu => affine_samples c q.2 q.1 u (by rw [hl q hq]; exact hu)
    unfold KVar.samples at e
    rw [e t ht, e s hs, absDiffs_affine]
  · congr 1
    refine List.map_congr_left fun t ht => ?_
    have ht' := List.mem_range.1 ht
    unfold ksgVal
    simp only [List.length_map, List.map_map]
    congr 3
    refine List.map_congr_left fun q hq => ?_
    simp only [Function.comp]
    congr 2
    have e : ∀ s < n, dists p.order (q.1.affine c q.2).samples t s = |c| * dists p.order q.1.samples t s := by
      intro s hs
      have h1 := dists_eq (p := p) (arr_aligned (hl q hq) (hw q hq)) ht' hs
      have h2 := dists_eq (p := p) (arr_aligned (v := q.1.affine c q.2) (by rw [affine_len, hl q hq]) (affine_wf c q.2 (hw q hq))) ht' hs
      have e := fun u hu => affine_samples c q.2 q.1 u (by rw [hl q hq]; exact hu)
      unfold KVar.samples at e ⊢
      rw [h1, h2, e t ht', e s hs, absDiffs_affine, normOf_smul hp hc'.le (absDiffs_nonneg _ _)]
    rw [ksgCount_congr e]
    unfold ksgCount
    rw [below_smul hc', within_smul hc']

example := C51_affine [(.one [0, 1, 3], fun _ => 5), (.one [2, 2, 0], fun _ => -1)] 3 ⟨by simp, by decide, by simp [KVar.len], by simp [KVar.WF, assure2d, Points]⟩ (-2) (by norm_num) .inf rfl 2 (by decide) 1 (.inl rfl) .e trivial

theorem sum_le_card {α : Type} (l : List α) (f : α → ℝ) (c : ℝ) (h : ∀ a ∈ l, f a ≤ c) : (l.map f).sum ≤ l.length * c := by
  induction l with
  | nil => simp
  | cons a l ih =>
    have h1 := ih (fun b hb => h b (by simp [hb]))
    have h2 := h a (by simp)
    simp only [List.map_cons, List.sum_cons, List.length_cons]
    push_cast
    linarith

theorem card_le_sum {α : Type} (l : List α) (f : α → ℝ) (c : ℝ) (h : ∀ a ∈ l, c ≤ f a) : l.length * c ≤ (l.map f).sum := by
  induction l with
  | nil => simp
  | cons a l ih =>
    have h1 := ih (fun b hb => h b (by simp [hb]))
    have h2 := h a (by simp)
    simp only [List.map_cons, List.sum_cons, List.length_cons]
    push_cast
    linarith

/-- Bounds of every local value and of the global value, type I: at least `ψ(k) − ψ(n)`; at most the value for isolated samples. -/
theorem C51_bounds (data : List KVar) (n : Nat) (H : MIArgs data n) (p : PNorm) (hp : p.ok = true) (k : Nat) (hk : 0 < k)
    (hkn : k < n) (b : Base) (hb : b.Std) :
    ∃ v, ksgMI data (some 0) false ⟨k, 1, p⟩ noNoise b = .ok v ∧ (psi k - psi n) / b.ln ≤ v ∧
      v ≤ (psi k - data.length * psi 1 + ((data.length : ℝ) - 1) * psi n) / b.ln := by
  obtain ⟨ε, hε⟩ := exists_kth H hp hk hkn
  refine ⟨_, (C51_value data n H p hp k hk hkn b hb.valid ε hε).1, ?_⟩
  have hne : List.range n ≠ [] := by have := H.pos; simp; omega
  have key := mean_bounds hne (f := fun t => ksgI p.order n k (data.map KVar.samples) t (ε t)) (lo := psi k - psi n)
    (hi := psi k - data.length * psi 1 + ((data.length : ℝ) - 1) * psi n) (by
    intro t ht
    have ht' := List.mem_range.1 ht
    unfold ksgI
    have h1 := sum_le_card (data.map KVar.samples) (fun X => psi (below n t (dists p.order X t) (ε t) + 1)) (psi n) (fun X _ =>
      psi_mono (by have := ksgCount_lt (id := 1) ht' (dists p.order X t) (ε t); unfold ksgCount at this; rw [if_pos rfl] at this; exact this))
    have h2 := card_le_sum (data.map KVar.samples) (fun X => psi (below n t (dists p.order X t) (ε t) + 1)) (psi 1) (fun X _ =>
      psi_mono (by omega))
    rw [List.length_map] at h1 h2
    rw [List.length_map]
    constructor <;> linarith)
  exact ⟨div_le_div_of_nonneg_right key.1 hb.ln_pos.le, div_le_div_of_nonneg_right key.2 hb.ln_pos.le⟩

example := C51_bounds [.one [0, 1, 3, 2], .two ⟨2, [[0, 1], [1, 1], [3, 0], [2, 2]]⟩] 4 ⟨by simp, by decide, by simp [KVar.len], by simp [KVar.WF, assure2d, Points]⟩ .inf rfl 2 (by decide) (by decide) (.num 2) (by norm_num [Base.Std])

/-- Type II: at least `ψ(k) − 1/k − ψ(n)`, and at most `ψ(k) − 1/k − m ψ(k+1) + (m−1) ψ(n)`, because the `k` joint neighbours
are neighbours in every variable. -/
theorem C51_bounds_type2 (data : List KVar) (n : Nat) (H : MIArgs data n) (p : PNorm) (hp : p.ok = true) (k : Nat) (hk : 0 < k)
    (hkn : k < n) (b : Base) (hb : b.Std) :
    ∃ v, ksgMI data (some 0) false ⟨k, 2, p⟩ noNoise b = .ok v ∧ (psi k - 1 / k - psi n) / b.ln ≤ v ∧
      v ≤ (psi k - 1 / k - data.length * psi (k + 1) + ((data.length : ℝ) - 1) * psi n) / b.ln := by
  obtain ⟨ε, hε⟩ := exists_kth H hp hk hkn
  refine ⟨_, (C51_value data n H p hp k hk hkn b hb.valid ε hε).2, ?_⟩
  have hne : List.range n ≠ [] := by have := H.pos; simp; omega
  have key := mean_bounds hne (f := fun t => ksgII p.order n k (data.map KVar.samples) t (ε t)) (lo := psi k - 1 / k - psi n)
    (hi := psi k - 1 / k - data.length * psi (k + 1) + ((data.length : ℝ) - 1) * psi n) (by
    intro t ht
    have ht' := List.mem_range.1 ht
    unfold ksgII
    have h1 := sum_le_card (data.map KVar.samples) (fun X => psi (within n t (dists p.order X t) (ε t) + 1)) (psi n) (fun X _ =>
      psi_mono (by have := within_lt ht' (dists p.order X t) (ε t); omega))
    have h2 := card_le_sum (data.map KVar.samples) (fun X => psi (within n t (dists p.order X t) (ε t) + 1)) (psi (k + 1)) (fun X hX => by
      obtain ⟨v, hv, rfl⟩ := List.mem_map.1 hX
      refine psi_mono (Nat.succ_le_succ (le_trans (hε t ht').2.2 (within_mono (fun s hs => ?_) _)))
      rw [← samples_eq]
      exact dists_le_joint hp H.aligned (List.mem_map.2 ⟨v, hv, rfl⟩) ht' hs)
    rw [List.length_map] at h1 h2
    rw [List.length_map]
    constructor <;> linarith)
  exact ⟨div_le_div_of_nonneg_right key.1 hb.ln_pos.le, div_le_div_of_nonneg_right key.2 hb.ln_pos.le⟩

example := C51_bounds_type2 [.one [0, 1, 3, 2], .two ⟨2, [[0, 1], [1, 1], [3, 0], [2, 2]]⟩] 4 ⟨by simp, by decide, by simp [KVar.len], by simp [KVar.WF, assure2d, Points]⟩ .inf rfl 2 (by decide) (by decide) (.num 2) (by norm_num [Base.Std])

theorem assure2d_two (a : Arr) : assure2d (.two a) = a := rfl

/-- The noise only enters through the data: the result is the result without noise for the perturbed variables. -/
theorem C51_noise (data : List KVar) (n : Nat) (H : MIArgs data n) (cfg : KsgCfg) (noise : Nat → Option (Nat → Nat → ℝ)) (b : Base) :
    ksgMI data (some 0) false cfg noise b =
      ksgMI (data.mapIdx (fun i v => v.noisy (noise i))) (some 0) false cfg noNoise b ∧
    MIArgs (data.mapIdx (fun i v => v.noisy (noise i))) n := by
  have H' : MIArgs (data.mapIdx (fun i v => v.noisy (noise i))) n := by
    refine ⟨by simpa using H.two, H.pos, ?_, ?_⟩
    · intro v hv
      obtain ⟨i, hi, rfl⟩ := List.mem_mapIdx.1 hv
      have := H.len _ (List.getElem_mem hi)
      rw [← KVar.len_rows] at this
      unfold KVar.noisy jitter
      cases noise i <;> simpa [KVar.len] using this
    · intro v hv
      obtain ⟨i, hi, rfl⟩ := List.mem_mapIdx.1 hv
      have := H.wf _ (List.getElem_mem hi)
      unfold KVar.noisy jitter
      cases noise i with
      | none => exact this
      | some e =>
        intro x hx
        simp only [assure2d_two] at hx ⊢
        obtain ⟨j, hj, rfl⟩ := List.mem_mapIdx.1 hx
        rw [List.length_mapIdx]
        exact this _ (List.getElem_mem hj)
  refine ⟨?_, H'⟩
  unfold ksgMI ksgMILocal
  rw [kmiInit_zero H, kmiInit_zero H']
  simp only [bind, Except.bind]
  rw [mapIdx_noNoise]
  have e : (data.map assure2d).mapIdx (fun i a => jitter (noise i) a) =
      (data.mapIdx (fun i v => v.noisy (noise i))).map assure2d := by
    refine List.ext_getElem (by simp) fun i h1 h2 => ?_
    simp [KVar.noisy, assure2d_two]
  rw [e]

example := C51_noise [.one [0, 1, 3, 2], .two ⟨2, [[0, 1], [1, 1], [3, 0], [2, 2]]⟩] 4 ⟨by simp, by decide, by simp [KVar.len], by simp [KVar.WF, assure2d, Points]⟩ ⟨2, 1, .inf⟩ (fun _ => some (fun i j => i - j)) .e

end Verif
