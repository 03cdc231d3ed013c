import Verif.Props.Ksg3

/-!
# C62 (continued): finiteness, errors, invariance, bounds, noise
-/

namespace Verif

open Spec

theorem ksgCMICalc_large {cfg : KsgCfg} {n : Nat} (hn : 0 < n) {as : List Arr} {z : Arr} (ha : ∀ a ∈ as ++ [z], a.rows.length = n)
    (hk : n ≤ cfg.k) {b : Base} (hb : b.Valid) :
    ksgCMICalc cfg b as z = .ok (List.replicate n ((ksgHead cfg - ((as.length : ℝ) - 1) * psi n) / b.ln)) := by
  have hz := ha z (by simp)
  unfold ksgCMICalc
  rw [stackArrs_ok (by simp) ha]
  simp only [bind, Except.bind]
  rw [if_neg (by omega)]
  rw [mapM_ok (g := fun a => (⟨([a, z].map Arr.cols).sum, (List.range n).map (jrow [a, z])⟩ : Arr)) as (fun a h =>
    stackArrs_ok (by simp) (fun c hc => by
      simp only [List.mem_cons, List.not_mem_nil, or_false] at hc
      rcases hc with rfl | rfl
      · exact ha _ (by simp [h])
      · exact hz))]
  simp only
  rw [hz, show List.replicate n ((ksgHead cfg - ((as.length : ℝ) - 1) * psi n) / b.ln) =
    (List.range n).map (fun _ => (ksgHead cfg - ((as.length : ℝ) - 1) * psi n) / b.ln) by
    rw [List.map_const', List.length_range]]
  refine mapM_ok (List.range n) fun t ht => ?_
  unfold ksgCMIAt
  rw [kthDist_none (by simp; omega), ksgLead_ok (by omega)]
  simp only [bind, Except.bind]
  rw [ksgArg_none, hz, npDigamma_nat _ hn]
  simp only
  rw [mapM_ok (g := fun _ : Arr => psi n) _ (fun a h => by
    obtain ⟨c, hc, rfl⟩ := List.mem_map.1 h
    rw [ksgArg_none]
    simp only [List.length_map, List.length_range]
    rw [npDigamma_nat _ hn])]
  simp only
  rw [scaleBase_ok hb, List.map_const', List.sum_replicate, nsmul_eq_mul, List.length_map]
  congr 2
  unfold ksgHead
  ring

/-- `k` is not checked against the sample size: for `k ≥ n` the result does not depend on the data. -/
theorem C62_k_too_large (data : List KVar) (z : KVar) (n : Nat) (H : CMIArgs data z n) (p : PNorm) (k : Nat) (hkn : n ≤ k) (b : Base)
    (hb : b.Valid) :
    ksgCMI data (some z) (some 0) false ⟨k, 1, p⟩ noNoise none b = .ok ((psi k - ((data.length : ℝ) - 1) * psi n) / b.ln) ∧
      ksgCMI data (some z) (some 0) false ⟨k, 2, p⟩ noNoise none b =
        .ok ((psi k - 1 / k - ((data.length : ℝ) - 1) * psi n) / b.ln) := by
  have hn : (n : ℝ) ≠ 0 := by exact_mod_cast H.pos.ne'
  have key : ∀ cfg : KsgCfg, cfg.ksgId = 1 ∨ cfg.ksgId = 2 → cfg.k = k →
      ksgCMI data (some z) (some 0) false cfg noNoise none b =
        .ok ((ksgHead cfg - ((data.length : ℝ) - 1) * psi n) / b.ln) := by
    intro cfg hid hk
    unfold ksgCMI ksgCMILocal
    rw [kcmiInit_args H (.inl rfl)]
    simp only [bind, Except.bind]
    rw [ksgIdCheck_ok hid]
    simp only
    rw [mapIdx_noNoise]
    simp only [jitter]
    rw [ksgCMICalc_large H.pos (fun a h => (H.aligned a h).1) (by omega) hb, List.length_map]
    simp only
    rw [meanOrNan_ok (by have := H.pos; simp; omega)]
    unfold mean
    rw [List.sum_replicate, List.length_replicate, nsmul_eq_mul]
    congr 1
    field_simp
  refine ⟨?_, ?_⟩
  · rw [key ⟨k, 1, p⟩ (.inl rfl) rfl]; simp [ksgHead]
  · rw [key ⟨k, 2, p⟩ (.inr rfl) rfl]; simp [ksgHead]

example := C62_k_too_large [.one [0, 1, 3, 2], .two ⟨2, [[0, 1], [1, 1], [3, 0], [2, 2]]⟩] (.one [5, 5, 0, 1]) 4 ⟨by simp, by decide, by simp [KVar.len], by simp [KVar.WF, assure2d, Points], rfl, by simp [KVar.WF, assure2d, Points]⟩ .inf 6 (by decide) .e trivial

/-- two data sets with the same sample size and number of variables have equal values when the neighbour structures agree -/
theorem ksgCond_transfer {data data' : List KVar} {z z' : KVar} {n : Nat} (H : CMIArgs data z n) (H' : CMIArgs data' z' n)
    (hlen : data'.length = data.length) (cfg : KsgCfg)
    (hp : cfg.p.ok = true) (hid : cfg.ksgId = 1 ∨ cfg.ksgId = 2) (hk : 0 < cfg.k) {b : Base} (hb : b.Valid)
    (key : ∀ ε : Nat → ℝ, (∀ t < n, IsKthDist n cfg.k t (jointDists cfg.p.order (data.map KVar.samples ++ [z.samples]) t) (ε t)) →
      ∃ ε' : Nat → ℝ, (∀ t < n, IsKthDist n cfg.k t (jointDists cfg.p.order (data'.map KVar.samples ++ [z'.samples]) t) (ε' t)) ∧
        mean ((List.range n).map (fun t => ksgCondVal cfg n (data.map KVar.samples) z.samples t (ε t))) =
          mean ((List.range n).map (fun t => ksgCondVal cfg n (data'.map KVar.samples) z'.samples t (ε' t)))) :
    ∃ v, ksgCMI data (some z) (some 0) false cfg noNoise none b = .ok v ∧
      ksgCMI data' (some z') (some 0) false cfg noNoise none b = .ok v := by
  rcases Nat.lt_or_ge cfg.k n with hkn | hkn
  · obtain ⟨ε, hε⟩ := exists_kth_cond H hp hk hkn
    obtain ⟨ε', hε', e⟩ := key ε (fun t ht => (hε t ht).2)
    refine ⟨_, ksgCMI_val data z n H cfg hp hid hk hkn b hb ε (fun t ht => (hε t ht).2), ?_⟩
    rw [ksgCMI_val data' z' n H' cfg hp hid hk hkn b hb ε' hε', e]
  · obtain ⟨k, id, p⟩ := cfg
    rcases hid with h | h
    · simp only at h; subst h
      have h2 := (C62_k_too_large data' z' n H' p k hkn b hb).1
      rw [hlen] at h2
      exact ⟨_, (C62_k_too_large data z n H p k hkn b hb).1, h2⟩
    · simp only at h; subst h
      have h2 := (C62_k_too_large data' z' n H' p k hkn b hb).2
      rw [hlen] at h2
      exact ⟨_, (C62_k_too_large data z n H p k hkn b hb).2, h2⟩

/-- The result is a finite number for all data, every `k ≥ 1`, both types, every norm. -/
theorem C62_finite (data : List KVar) (z : KVar) (n : Nat) (H : CMIArgs data z n) (p : PNorm) (hp : p.ok = true) (k : Nat) (hk : 0 < k)
    (id : Int) (hid : id = 1 ∨ id = 2) (b : Base) (hb : b.Valid) :
    ∃ v, ksgCMI data (some z) (some 0) false ⟨k, id, p⟩ noNoise none b = .ok v := by
  obtain ⟨v, h, _⟩ := ksgCond_transfer H H rfl ⟨k, id, p⟩ hp hid hk hb (fun ε hε => ⟨ε, hε, rfl⟩)
  exact ⟨v, h⟩

example := C62_finite [.one [0, 1, 3, 2], .two ⟨2, [[0, 1], [1, 1], [3, 0], [2, 2]]⟩] (.one [5, 5, 0, 1]) 4 ⟨by simp, by decide, by simp [KVar.len], by simp [KVar.WF, assure2d, Points], rfl, by simp [KVar.WF, assure2d, Points]⟩ .inf rfl 2 (by decide) 2 (.inr rfl) .e trivial

/-- Errors: `k = 0` is an IndexError, `ksg_id` other than 1 and 2 a ValueError; a missing condition, an offset other than
0 or None, and a length mismatch among the first two variables and the condition are ValueErrors. -/
theorem C62_bad_parameters (data : List KVar) (z : KVar) (n : Nat) (H : CMIArgs data z n) (k : Nat) (id : Int) (p : PNorm) (b : Base) :
    ((id = 1 ∨ id = 2) → ksgCMI data (some z) (some 0) false ⟨0, id, p⟩ noNoise none b = .error .indexError) ∧
    (¬ (id = 1 ∨ id = 2) → ksgCMI data (some z) (some 0) false ⟨k, id, p⟩ noNoise none b = .error .valueError) := by
  constructor
  · intro hid
    unfold ksgCMI ksgCMILocal
    rw [kcmiInit_args H (.inl rfl)]
    simp only [bind, Except.bind]
    rw [ksgIdCheck_ok hid]
    simp only
    rw [mapIdx_noNoise]
    unfold ksgCMICalc
    simp only [jitter]
    rw [stackArrs_ok (by simp) (fun a h => (H.aligned a h).1)]
    simp [bind, Except.bind]
  · intro hid
    unfold ksgCMI ksgCMILocal
    rw [kcmiInit_args H (.inl rfl)]
    simp only [bind, Except.bind, ksgIdCheck, if_neg hid]

example := (C62_bad_parameters [.one [0, 1, 3, 2], .two ⟨2, [[0, 1], [1, 1], [3, 0], [2, 2]]⟩] (.one [5, 5, 0, 1]) 4 ⟨by simp, by decide, by simp [KVar.len], by simp [KVar.WF, assure2d, Points], rfl, by simp [KVar.WF, assure2d, Points]⟩ 3 2 .inf .e).1 (.inr rfl)
example := (C62_bad_parameters [.one [0, 1, 3, 2], .two ⟨2, [[0, 1], [1, 1], [3, 0], [2, 2]]⟩] (.one [5, 5, 0, 1]) 4 ⟨by simp, by decide, by simp [KVar.len], by simp [KVar.WF, assure2d, Points], rfl, by simp [KVar.WF, assure2d, Points]⟩ 3 5 .inf .e).2 (by simp)

theorem C62_argument_errors (x y : KVar) (data : List KVar) (z : KVar) (o : Option Int) (cfg : KsgCfg)
    (noise : Nat → Option (Nat → Nat → ℝ)) (noiseZ : Option (Nat → Nat → ℝ)) (nm : Bool) (b : Base) :
    ksgCMI (x :: y :: data) none o nm cfg noise noiseZ b = .error .valueError ∧
    (¬ (o = some 0 ∨ o = none) → ksgCMI (x :: y :: data) (some z) o nm cfg noise noiseZ b = .error .valueError) ∧
    (x.len ≠ y.len ∨ x.len ≠ z.len → ksgCMI (x :: y :: data) (some z) o nm cfg noise noiseZ b = .error .valueError) := by
  refine ⟨rfl, fun h => ?_, fun h => ?_⟩
  · simp only [ksgCMI, ksgCMILocal, kcmiInit, if_pos h, bind, Except.bind]
  · by_cases ho : o = some 0 ∨ o = none
    · simp only [ksgCMI, ksgCMILocal, kcmiInit, ho, not_true_eq_false, if_false, if_pos h, bind, Except.bind]
    · simp only [ksgCMI, ksgCMILocal, kcmiInit, if_pos ho, bind, Except.bind]

example := (C62_argument_errors (.one [0, 1]) (.one [2, 3]) [] (.one [0]) (some 0) ⟨2, 1, .inf⟩ noNoise none false .e).2.2 (by simp [KVar.len])
example := (C62_argument_errors (.one [0, 1]) (.one [2, 3]) [] (.one [0, 0]) (some 1) ⟨2, 1, .inf⟩ noNoise none false .e).2.1 (by simp)

theorem CMIArgs.reorder {data : List KVar} {z : KVar} {n : Nat} (H : CMIArgs data z n) {σ : List Nat} (hσ : σ.Perm (List.range n)) :
    CMIArgs (data.map (KVar.reorder σ)) (z.reorder σ) n :=
  ⟨(H.mi.reorder hσ).two, H.pos, (H.mi.reorder hσ).len, (H.mi.reorder hσ).wf, reorder_len hσ z, reorder_wf hσ H.lenz H.wfz⟩

theorem jointSample_append_one (vars : List (List (List ℝ))) (Z : List (List ℝ)) (t : Nat) :
    jointSample (vars ++ [Z]) t = jointSample vars t ++ Z.getD t [] := by
  simp [jointSample]

theorem jointSample_pair (X Z : List (List ℝ)) (t : Nat) : jointSample [X, Z] t = X.getD t [] ++ Z.getD t [] := by
  simp [jointSample]

/-- The order of the samples does not matter, as long as all variables and the condition are reordered alike. -/
theorem C62_sample_order (data : List KVar) (z : KVar) (n : Nat) (H : CMIArgs data z n) (σ : List Nat) (hσ : σ.Perm (List.range n))
    (p : PNorm) (hp : p.ok = true) (k : Nat) (hk : 0 < k) (id : Int) (hid : id = 1 ∨ id = 2) (b : Base) (hb : b.Valid) :
    ∃ v, ksgCMI data (some z) (some 0) false ⟨k, id, p⟩ noNoise none b = .ok v ∧
      ksgCMI (data.map (KVar.reorder σ)) (some (z.reorder σ)) (some 0) false ⟨k, id, p⟩ noNoise none b = .ok v := by
  have hf := perm_index hσ
  have hlt : ∀ t < n, σ.getD t 0 < n := fun t ht =>
    List.mem_range.1 (hf.mem_iff.1 (List.mem_map.2 ⟨t, List.mem_range.2 ht, rfl⟩))
  refine ksgCond_transfer H (H.reorder hσ) (by simp) ⟨k, id, p⟩ hp hid hk hb fun ε hε =>
    ⟨fun t => ε (σ.getD t 0), fun t ht => ?_, ?_⟩
  · refine isKthDist_congr (fun s hs => ?_) (isKthDist_relabel hf ht (hε _ (hlt t ht)))
    unfold jointDists
    rw [jointSample_append_one, jointSample_append_one, jointSample_append_one, jointSample_append_one,
      jointSample_reorder hσ H.len ht, jointSample_reorder hσ H.len hs, reorder_samples hσ H.lenz ht, reorder_samples hσ H.lenz hs]
  · have e : (List.range n).map (fun t => ksgCondVal ⟨k, id, p⟩ n ((data.map (KVar.reorder σ)).map KVar.samples)
        (z.reorder σ).samples t (ε (σ.getD t 0))) =
        ((List.range n).map (fun t => σ.getD t 0)).map (fun t => ksgCondVal ⟨k, id, p⟩ n (data.map KVar.samples) z.samples t (ε t)) := by
      conv_rhs => rw [List.map_map]
      refine List.map_congr_left fun t ht => ?_
      have ht' := List.mem_range.1 ht
      simp only [Function.comp]
      unfold ksgCondVal
      rw [List.map_map, List.map_map, List.map_map]
      congr 2
      · rw [← ksgCount_relabel hf ht']
        congr 2
        refine ksgCount_congr (fun s hs => ?_) _
        unfold dists
        rw [reorder_samples hσ H.lenz ht', reorder_samples hσ H.lenz hs]
      · refine List.map_congr_left fun v hv => ?_
        simp only [Function.comp]
        rw [← ksgCount_relabel hf ht']
        congr 2
        refine ksgCount_congr (fun s hs => ?_) _
        unfold jointDists
        rw [jointSample_pair, jointSample_pair, jointSample_pair, jointSample_pair,
          reorder_samples hσ (H.len v hv) ht', reorder_samples hσ (H.len v hv) hs, reorder_samples hσ H.lenz ht', reorder_samples hσ H.lenz hs]
    rw [e, mean_perm hf]

example := C62_sample_order [.one [0, 1, 3, 2], .two ⟨2, [[0, 1], [1, 1], [3, 0], [2, 2]]⟩] (.one [5, 5, 0, 1]) 4 ⟨by simp, by decide, by simp [KVar.len], by simp [KVar.WF, assure2d, Points], rfl, by simp [KVar.WF, assure2d, Points]⟩ [2, 0, 3, 1] (by decide) .inf rfl 2 (by decide) 1 (.inl rfl) .e trivial

theorem jointDists_affine {p : PNorm} (hp : p.ok = true) {c : ℝ} (hc : c ≠ 0) {n : Nat} (L : List (KVar × (Nat → ℝ)))
    (hl : ∀ q ∈ L, q.1.len = n) (hw : ∀ q ∈ L, q.1.WF) {t s : Nat} (ht : t < n) (hs : s < n) :
    jointDists p.order (L.map (fun q => (q.1.affine c q.2).samples)) t s =
      |c| * jointDists p.order (L.map (fun q => q.1.samples)) t s := by
  have hc' : 0 < |c| := abs_pos.2 hc
  have a1 : Aligned n (L.map (fun q => assure2d q.1)) := by
    intro a ha
    obtain ⟨q, hq, rfl⟩ := List.mem_map.1 ha
    exact arr_aligned (hl q hq) (hw q hq)
  have a2 : Aligned n (L.map (fun q => assure2d (q.1.affine c q.2))) := by
    intro a ha
    obtain ⟨q, hq, rfl⟩ := List.mem_map.1 ha
    exact arr_aligned (by rw [affine_len, hl q hq]) (affine_wf c q.2 (hw q hq))
  have j1 := jointDists_eq (p := p) a1 ht hs
  have j2 := jointDists_eq (p := p) a2 ht hs
  rw [List.map_map] at j1 j2
  refine Eq.trans j2 ?_
  refine Eq.trans ?_ (congrArg (|c| * ·) j1.symm)
  rw [← normOf_smul hp hc'.le (by
      intro x hx
      rw [List.mem_flatten] at hx
      obtain ⟨l, hL, hx⟩ := hx
      obtain ⟨b, _, rfl⟩ := List.mem_map.1 hL
      exact absDiffs_nonneg _ _ x hx), List.map_flatten]
  congr 2
  simp only [List.map_map]
  refine List.map_congr_left fun q hq => ?_
  simp only [Function.comp]
  have e := fun u hu => affine_samples c q.2 q.1 u (by rw [hl q hq]; exact hu)
  unfold KVar.samples at e
  rw [e t ht, e s hs, absDiffs_affine]

theorem ksgCount_smul {id : Int} {n t : Nat} {δ : Nat → ℝ} {c ε : ℝ} (hc : 0 < c) :
    ksgCount id n t (fun s => c * δ s) (c * ε) = ksgCount id n t δ ε := by
  unfold ksgCount
  rw [below_smul hc, within_smul hc]

/-- Scaling all variables and the condition by the same non-zero factor and shifting every column by its own offset changes
nothing. -/
theorem C62_affine (L : List (KVar × (Nat → ℝ))) (z : KVar) (oz : Nat → ℝ) (n : Nat) (H : CMIArgs (L.map Prod.fst) z n) (c : ℝ)
    (hc : c ≠ 0) (p : PNorm) (hp : p.ok = true) (k : Nat) (hk : 0 < k) (id : Int) (hid : id = 1 ∨ id = 2) (b : Base) (hb : b.Valid) :
    ∃ v, ksgCMI (L.map Prod.fst) (some z) (some 0) false ⟨k, id, p⟩ noNoise none b = .ok v ∧
      ksgCMI (L.map (fun q => q.1.affine c q.2)) (some (z.affine c oz)) (some 0) false ⟨k, id, p⟩ noNoise none b = .ok v := by
  have hc' : 0 < |c| := abs_pos.2 hc
  have hl : ∀ q ∈ L, q.1.len = n := fun q hq => H.len _ (List.mem_map.2 ⟨q, hq, rfl⟩)
  have hw : ∀ q ∈ L, q.1.WF := fun q hq => H.wf _ (List.mem_map.2 ⟨q, hq, rfl⟩)
  have H' : CMIArgs (L.map (fun q => q.1.affine c q.2)) (z.affine c oz) n := by
    refine ⟨by simpa using H.two, H.pos, ?_, ?_, by rw [affine_len]; exact H.lenz, affine_wf c oz H.wfz⟩
    · intro v hv
      obtain ⟨q, hq, rfl⟩ := List.mem_map.1 hv
      rw [affine_len, hl q hq]
    · intro v hv
      obtain ⟨q, hq, rfl⟩ := List.mem_map.1 hv
      exact affine_wf c q.2 (hw q hq)
  have hd : ∀ t < n, ∀ s < n, dists p.order (z.affine c oz).samples t s = |c| * dists p.order z.samples t s := by
    intro t ht s hs
    have h1 := dists_eq (p := p) (arr_aligned H.lenz H.wfz) ht hs
    have h2 := dists_eq (p := p) (arr_aligned H'.lenz H'.wfz) ht hs
    have e := fun u hu => affine_samples c oz z u (by rw [H.lenz]; exact hu)
    unfold KVar.samples at e ⊢
    rw [h1, h2, e t ht, e s hs, absDiffs_affine, normOf_smul hp hc'.le (absDiffs_nonneg _ _)]
  refine ksgCond_transfer H H' (by simp) ⟨k, id, p⟩ hp hid hk hb fun ε hε => ⟨fun t => |c| * ε t, fun t ht => ?_, ?_⟩
  · refine isKthDist_congr (fun s hs => ?_) (isKthDist_smul hc' (hε t ht))
    have := jointDists_affine hp hc (L ++ [(z, oz)]) (n := n) (by
      intro q hq
      rcases List.mem_append.1 hq with h | h
      · exact hl q h
      · rw [List.mem_singleton] at h; subst h; exact H.lenz) (by
      intro q hq
      rcases List.mem_append.1 hq with h | h
      · exact hw q h
      · rw [List.mem_singleton] at h; subst h; exact H.wfz) ht hs
    simp only [List.map_append, List.map_cons, List.map_nil] at this
    rw [List.map_map, List.map_map]
    exact this.symm
  · congr 1
    refine List.map_congr_left fun t ht => ?_
    have ht' := List.mem_range.1 ht
    unfold ksgCondVal
    rw [ksgCount_congr (hd t ht'), ksgCount_smul hc']
    simp only [List.map_map]
    congr 2
    refine List.map_congr_left fun q hq => ?_
    simp only [Function.comp]
    congr 2
    have := fun s hs => jointDists_affine hp hc [q, (z, oz)] (n := n) (by
      intro r hr
      simp only [List.mem_cons, List.not_mem_nil, or_false] at hr
      rcases hr with rfl | rfl
      · exact hl _ hq
      · exact H.lenz) (by
      intro r hr
      simp only [List.mem_cons, List.not_mem_nil, or_false] at hr
      rcases hr with rfl | rfl
      · exact hw _ hq
      · exact H.wfz) (t := t) (s := s) ht' hs
    simp only [List.map_cons, List.map_nil] at this
    rw [ksgCount_congr this, ksgCount_smul hc']

example := C62_affine [(.one [0, 1, 3], fun _ => 5), (.one [2, 2, 0], fun _ => -1)] (.one [2, 4, 4]) (fun _ => 7) 3 ⟨by simp, by decide, by simp [KVar.len], by simp [KVar.WF, assure2d, Points], rfl, by simp [KVar.WF, assure2d, Points]⟩ (-2) (by norm_num) .inf rfl 2 (by decide) 1 (.inl rfl) .e trivial

/-- a variable's distances together with the condition are at least those of the condition alone -/
theorem dists_le_pair {p : PNorm} (hp : p.ok = true) {n : Nat} {x z : KVar} (hx : x.len = n) (wx : x.WF) (hz : z.len = n) (wz : z.WF)
    {t s : Nat} (ht : t < n) (hs : s < n) : dists p.order z.samples t s ≤ jointDists p.order [x.samples, z.samples] t s := by
  have ha : Aligned n [assure2d x, assure2d z] := by
    intro a h
    simp only [List.mem_cons, List.not_mem_nil, or_false] at h
    rcases h with rfl | rfl
    · exact arr_aligned hx wx
    · exact arr_aligned hz wz
  exact dists_le_joint hp ha (a := assure2d z) (by simp) ht hs

theorem below_mono' {n t : Nat} {δ δ' : Nat → ℝ} (h : ∀ s < n, δ s ≤ δ' s) (ε : ℝ) : below n t δ' ε ≤ below n t δ ε := by
  unfold below
  exact filter_length_mono _ _ fun s hs hp => ⟨hp.1, lt_of_le_of_lt (h s hs) hp.2⟩

theorem ksgCount_mono {id : Int} {n t : Nat} {δ δ' : Nat → ℝ} (h : ∀ s < n, δ s ≤ δ' s) (ε : ℝ) :
    ksgCount id n t δ' ε ≤ ksgCount id n t δ ε := by
  unfold ksgCount
  split_ifs
  · exact below_mono' h ε
  · exact within_mono h ε

/-- local bounds of two variables given a third -/
theorem ksgCondVal_bounds {cfg : KsgCfg} (hp : cfg.p.ok = true) {n : Nat} {x y z : KVar} (H : CMIArgs [x, y] z n) {t : Nat} (ht : t < n)
    {ε : ℝ} : ksgHead cfg - psi n ≤ ksgCondVal cfg n [x.samples, y.samples] z.samples t ε ∧
      ksgCondVal cfg n [x.samples, y.samples] z.samples t ε ≤ ksgHead cfg + psi n - 2 * psi 1 := by
  unfold ksgCondVal
  simp only [List.map_cons, List.map_nil, List.sum_cons, List.sum_nil, add_zero]
  have h1 := psi_mono (Nat.succ_le_succ (ksgCount_mono (id := cfg.ksgId) (t := t)
    (fun s hs => dists_le_pair hp (H.len x (by simp)) (H.wf x (by simp)) H.lenz H.wfz ht hs) ε))
  have h2 := psi_mono (ksgCount_lt (id := cfg.ksgId) ht (jointDists cfg.p.order [y.samples, z.samples] t) ε)
  have h3 := psi_mono (ksgCount_lt (id := cfg.ksgId) ht (dists cfg.p.order z.samples t) ε)
  have h4 : psi 1 ≤ psi (ksgCount cfg.ksgId n t (jointDists cfg.p.order [x.samples, z.samples] t) ε + 1) := psi_mono (by omega)
  have h5 : psi 1 ≤ psi (ksgCount cfg.ksgId n t (jointDists cfg.p.order [y.samples, z.samples] t) ε + 1) := psi_mono (by omega)
  simp only [Nat.succ_eq_add_one] at h1
  constructor <;> linarith

/-- Bounds of the estimate for two variables: not below `ψ(k) − ψ(n)`, not above `ψ(k) + ψ(n) − 2 ψ(1)` (type II: both
`1/k` less). -/
theorem C62_bounds (x y z : KVar) (n : Nat) (H : CMIArgs [x, y] z n) (p : PNorm) (hp : p.ok = true) (k : Nat) (hk : 0 < k)
    (hkn : k < n) (b : Base) (hb : b.Std) :
    (∃ v, ksgCMI [x, y] (some z) (some 0) false ⟨k, 1, p⟩ noNoise none b = .ok v ∧ (psi k - psi n) / b.ln ≤ v ∧
      v ≤ (psi k + psi n - 2 * psi 1) / b.ln) ∧
    (∃ v, ksgCMI [x, y] (some z) (some 0) false ⟨k, 2, p⟩ noNoise none b = .ok v ∧ (psi k - 1 / k - psi n) / b.ln ≤ v ∧
      v ≤ (psi k - 1 / k + psi n - 2 * psi 1) / b.ln) := by
  obtain ⟨ε, hε⟩ := exists_kth_cond H hp hk hkn
  have hne : List.range n ≠ [] := by have := H.pos; simp; omega
  have key : ∀ cfg : KsgCfg, cfg.p = p → cfg.k = k → cfg.ksgId = 1 ∨ cfg.ksgId = 2 →
      ∃ v, ksgCMI [x, y] (some z) (some 0) false cfg noNoise none b = .ok v ∧ (ksgHead cfg - psi n) / b.ln ≤ v ∧
      v ≤ (ksgHead cfg + psi n - 2 * psi 1) / b.ln := by
    rintro cfg rfl rfl hid
    refine ⟨_, ksgCMI_val [x, y] z n H cfg hp hid hk hkn b hb.valid ε (fun t ht => (hε t ht).2), ?_⟩
    have key := mean_bounds hne (f := fun t => ksgCondVal cfg n ([x, y].map KVar.samples) z.samples t (ε t))
      (fun t ht => ksgCondVal_bounds hp H (List.mem_range.1 ht))
    exact ⟨div_le_div_of_nonneg_right key.1 hb.ln_pos.le, div_le_div_of_nonneg_right key.2 hb.ln_pos.le⟩
  constructor
  · simpa [ksgHead] using key ⟨k, 1, p⟩ rfl rfl (.inl rfl)
  · simpa [ksgHead] using key ⟨k, 2, p⟩ rfl rfl (.inr rfl)

example := C62_bounds (.one [0, 1, 3]) (.one [2, 2, 0]) (.one [2, 4, 4]) 3 ⟨by simp, by decide, by simp [KVar.len], by simp [KVar.WF, assure2d, Points], rfl, by simp [KVar.WF, assure2d, Points]⟩ .inf rfl 2 (by decide) (by decide) (.num 2) (by norm_num [Base.Std])

theorem noisy_len (e : Option (Nat → Nat → ℝ)) (v : KVar) : (v.noisy e).len = v.len := by
  rw [← KVar.len_rows, ← KVar.len_rows]
  unfold KVar.noisy jitter
  cases e <;> simp [assure2d_two]

theorem noisy_wf (e : Option (Nat → Nat → ℝ)) {v : KVar} (hw : v.WF) : (v.noisy e).WF := by
  unfold KVar.noisy jitter
  cases e with
  | none => exact hw
  | some e =>
    intro x hx
    simp only [assure2d_two] at hx ⊢
    obtain ⟨j, hj, rfl⟩ := List.mem_mapIdx.1 hx
    rw [List.length_mapIdx]
    exact hw _ (List.getElem_mem hj)

/-- The noise only enters through the data. -/
theorem C62_noise (data : List KVar) (z : KVar) (n : Nat) (H : CMIArgs data z n) (cfg : KsgCfg)
    (noise : Nat → Option (Nat → Nat → ℝ)) (noiseZ : Option (Nat → Nat → ℝ)) (b : Base) :
    ksgCMI data (some z) (some 0) false cfg noise noiseZ b =
      ksgCMI (data.mapIdx (fun i v => v.noisy (noise i))) (some (z.noisy noiseZ)) (some 0) false cfg noNoise none b ∧
    CMIArgs (data.mapIdx (fun i v => v.noisy (noise i))) (z.noisy noiseZ) n := by
  have H' : CMIArgs (data.mapIdx (fun i v => v.noisy (noise i))) (z.noisy noiseZ) n := by
    have h := (C51_noise data n H.mi cfg noise b).2
    exact ⟨h.two, h.pos, h.len, h.wf, by rw [noisy_len]; exact H.lenz, noisy_wf noiseZ H.wfz⟩
  refine ⟨?_, H'⟩
  unfold ksgCMI ksgCMILocal
  rw [kcmiInit_args H (.inl rfl), kcmiInit_args H' (.inl rfl)]
  simp only [bind, Except.bind]
  rw [mapIdx_noNoise]
  have e : (data.map assure2d).mapIdx (fun i a => jitter (noise i) a) =
      (data.mapIdx (fun i v => v.noisy (noise i))).map assure2d := by
    refine List.ext_getElem (by simp) fun i h1 h2 => ?_
    simp [KVar.noisy, assure2d_two]
  rw [e]
  rfl

/-- a case that satisfies the hypotheses: 4 samples, two one-dimensional variables, a two-dimensional condition -/
example : CMIArgs [.one [0, 1, 2, 4], .one [3, 1, 0, 2]] (.two ⟨2, [[0, 1], [1, 1], [2, 0], [0, 0]]⟩) 4 := by
  refine ⟨by simp, by simp, ?_, ?_, rfl, ?_⟩
  · intro v hv
    simp only [List.mem_cons, List.not_mem_nil, or_false] at hv
    rcases hv with rfl | rfl <;> rfl
  · intro v hv
    simp only [List.mem_cons, List.not_mem_nil, or_false] at hv
    rcases hv with rfl | rfl <;> exact KVar.wf_one _
  · intro x hx
    simp only [assure2d, List.mem_cons, List.not_mem_nil, or_false] at hx ⊢
    rcases hx with rfl | rfl | rfl | rfl <;> rfl

end Verif
