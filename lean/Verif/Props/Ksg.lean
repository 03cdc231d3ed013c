import Verif.Lemmas.Samples
import Verif.Lemmas.Knn2
import Verif.Props.KernelMI2

/-!
# C51: Kraskov–Stögbauer–Grassberger mutual information

`ksgMI data (some 0) false ⟨k, id, p⟩ noise b` is `mutual_information(*data, approach="ksg", k=k, ksg_id=id,
minkowski_p=p, base=b)`; `noise i` is the random noise array added to variable `i`.
-/

namespace Verif

open Spec

/-- no noise (`noise_level=0`) -/
def noNoise : Nat → Option (Nat → Nat → ℝ) := fun _ => none

theorem mapIdx_noNoise (as : List Arr) : as.mapIdx (fun i a => jitter (noNoise i) a) = as := by
  refine List.ext_getElem (by simp) fun i h1 h2 => ?_
  simp [noNoise, jitter]

/-- leading term -/
noncomputable def ksgHead (cfg : KsgCfg) : ℝ := if cfg.ksgId = 1 then psi cfg.k else psi cfg.k - 1 / (cfg.k : ℝ)

/-- local value as a function of the neighbour counts -/
noncomputable def ksgVal (cfg : KsgCfg) (n : Nat) (vars : List (List (List ℝ))) (t : Nat) (ε : ℝ) : ℝ :=
  ksgHead cfg - (vars.map (fun X => psi (ksgCount cfg.ksgId n t (dists cfg.p.order X t) ε + 1))).sum +
    ((vars.length : ℝ) - 1) * psi n

theorem ksgVal_one {cfg : KsgCfg} (h : cfg.ksgId = 1) (n : Nat) (vars : List (List (List ℝ))) (t : Nat) (ε : ℝ) :
    ksgVal cfg n vars t ε = ksgI cfg.p.order n cfg.k vars t ε := by
  unfold ksgVal ksgHead ksgCount ksgI
  simp only [h, if_true]

theorem ksgVal_two {cfg : KsgCfg} (h : cfg.ksgId = 2) (n : Nat) (vars : List (List (List ℝ))) (t : Nat) (ε : ℝ) :
    ksgVal cfg n vars t ε = ksgII cfg.p.order n cfg.k vars t ε := by
  unfold ksgVal ksgHead ksgCount ksgII
  have : ¬ ((2 : Int) = 1) := by decide
  simp only [h, this, if_false]

/-- `_calculate` on aligned arrays -/
theorem ksgMICalc_ok {cfg : KsgCfg} (hok : cfg.p.ok = true) {n : Nat} {as : List Arr} (hne : as ≠ []) (ha : Aligned n as)
    (hk : 0 < cfg.k) (hkn : cfg.k < n) {b : Base} (hb : b.Valid) {ε : Nat → ℝ}
    (hε : ∀ t < n, IsKthDist n cfg.k t (jointDists cfg.p.order (as.map Arr.rows) t) (ε t)) :
    ksgMICalc cfg b as = .ok ((List.range n).map (fun t => ksgVal cfg n (as.map Arr.rows) t (ε t) / b.ln)) := by
  have hlen : (as.headD ⟨0, []⟩).rows.length = n := by
    cases as with
    | nil => exact absurd rfl hne
    | cons a as => exact (ha a (by simp)).1
  unfold ksgMICalc
  rw [stackArrs_ok hne (fun a h => (ha a h).1)]
  simp only [bind, Except.bind]
  rw [if_neg (by omega), hlen]
  refine mapM_ok (List.range n) fun t ht => ?_
  have ht' := List.mem_range.1 ht
  obtain ⟨e, h1, h2, h3⟩ := joint_kth hok ha ht' hk hkn
  have he := isKthDist_unique h3 (hε t ht')
  subst he
  unfold ksgMIAt
  simp only [h1, ksgLead_ok hk, bind, Except.bind, hlen]
  rw [mapM_ok (g := fun v : Arr => psi (ksgCount cfg.ksgId n t (dists cfg.p.order v.rows t) (ε t) + 1)) as (fun a h => by
    rw [ksgArg_some hok (ha a h).1 (ha a h).2 ht' h2, npDigamma_nat _ (by omega)])]
  simp only
  rw [npDigamma_nat _ (by omega), ]
  simp only
  rw [scaleBase_ok hb]
  unfold ksgVal ksgHead
  rw [List.map_map, List.length_map]
  rfl

theorem samples_eq (data : List KVar) : (data.map assure2d).map Arr.rows = data.map KVar.samples := by
  rw [List.map_map]; rfl

theorem MIArgs.ne {data : List KVar} {n : Nat} (H : MIArgs data n) : data.map assure2d ≠ [] := by
  have := H.two; intro h0; simp at h0; rw [h0] at this; simp at this

theorem ksgIdCheck_ok {cfg : KsgCfg} (h : cfg.ksgId = 1 ∨ cfg.ksgId = 2) : ksgIdCheck cfg = .ok () := by
  unfold ksgIdCheck; rw [if_pos h]

/-- The distance to the `k`-th nearest other sample exists in the joint space of any data with more than `k` samples,
and it is unique. -/
theorem C51_kth_distance (data : List KVar) (n : Nat) (H : MIArgs data n) (p : PNorm) (hp : p.ok = true) (k : Nat) (hk : 0 < k)
    (hkn : k < n) (t : Nat) (ht : t < n) :
    ∃! ε, IsKthDist n k t (jointDists p.order (data.map KVar.samples) t) ε := by
  obtain ⟨ε, _, _, h⟩ := joint_kth hp H.aligned ht hk hkn
  rw [samples_eq] at h
  exact ⟨ε, h, fun y hy => isKthDist_unique hy h⟩

example := C51_kth_distance [.one [0, 1, 3, 2], .two ⟨2, [[0, 1], [1, 1], [3, 0], [2, 2]]⟩] 4 ⟨by simp, by decide, by simp [KVar.len], by simp [KVar.WF, assure2d, Points]⟩ .inf rfl 2 (by decide) (by decide) 1 (by decide)

theorem ksgLocal_val (data : List KVar) (n : Nat) (H : MIArgs data n) (cfg : KsgCfg) (hp : cfg.p.ok = true)
    (hid : cfg.ksgId = 1 ∨ cfg.ksgId = 2) (hk : 0 < cfg.k) (hkn : cfg.k < n) (b : Base) (hb : b.Valid) (ε : Nat → ℝ)
    (hε : ∀ t < n, IsKthDist n cfg.k t (jointDists cfg.p.order (data.map KVar.samples) t) (ε t)) :
    ksgMILocal data (some 0) false cfg noNoise b =
      .ok ((List.range n).map (fun t => ksgVal cfg n (data.map KVar.samples) t (ε t) / b.ln)) := by
  unfold ksgMILocal
  rw [kmiInit_zero H]
  simp only [bind, Except.bind]
  rw [ksgIdCheck_ok hid]
  simp only
  rw [mapIdx_noNoise, ksgMICalc_ok hp H.ne H.aligned hk hkn hb (ε := ε) (by rw [samples_eq]; exact hε), samples_eq]

theorem ksgMI_val (data : List KVar) (n : Nat) (H : MIArgs data n) (cfg : KsgCfg) (hp : cfg.p.ok = true)
    (hid : cfg.ksgId = 1 ∨ cfg.ksgId = 2) (hk : 0 < cfg.k) (hkn : cfg.k < n) (b : Base) (hb : b.Valid) (ε : Nat → ℝ)
    (hε : ∀ t < n, IsKthDist n cfg.k t (jointDists cfg.p.order (data.map KVar.samples) t) (ε t)) :
    ksgMI data (some 0) false cfg noNoise b =
      .ok (mean ((List.range n).map (fun t => ksgVal cfg n (data.map KVar.samples) t (ε t))) / b.ln) := by
  unfold ksgMI
  rw [ksgLocal_val data n H cfg hp hid hk hkn b hb ε hε]
  simp only [bind, Except.bind]
  rw [meanOrNan_ok (by have := H.pos; simp; omega), mean_map_div]

/-- Local values, type I: for every number of variables, every dimension and every Minkowski norm. -/
theorem C51_local (data : List KVar) (n : Nat) (H : MIArgs data n) (p : PNorm) (hp : p.ok = true) (k : Nat) (hk : 0 < k)
    (hkn : k < n) (b : Base) (hb : b.Valid) (ε : Nat → ℝ)
    (hε : ∀ t < n, IsKthDist n k t (jointDists p.order (data.map KVar.samples) t) (ε t)) :
    ksgMILocal data (some 0) false ⟨k, 1, p⟩ noNoise b =
      .ok ((List.range n).map (fun t => ksgI p.order n k (data.map KVar.samples) t (ε t) / b.ln)) := by
  rw [ksgLocal_val data n H ⟨k, 1, p⟩ hp (.inl rfl) hk hkn b hb ε hε]
  simp only [ksgVal_one (cfg := ⟨k, 1, p⟩) rfl]

example : ∃ ε : Nat → ℝ, ksgMILocal [.one [0, 1, 3, 2], .two ⟨2, [[0, 1], [1, 1], [3, 0], [2, 2]]⟩] (some 0) false ⟨2, 1, .inf⟩ noNoise .e =
    .ok ((List.range 4).map (fun t => ksgI none 4 2 (List.map KVar.samples [.one [0, 1, 3, 2], .two ⟨2, [[0, 1], [1, 1], [3, 0], [2, 2]]⟩]) t (ε t) / Base.e.ln)) := by
  have := fun t ht => (C51_kth_distance [.one [0, 1, 3, 2], .two ⟨2, [[0, 1], [1, 1], [3, 0], [2, 2]]⟩] 4 ⟨by simp, by decide, by simp [KVar.len], by simp [KVar.WF, assure2d, Points]⟩ .inf rfl 2 (by decide) (by decide) t ht).exists
  choose! ε hε using this
  exact ⟨ε, C51_local _ 4 ⟨by simp, by decide, by simp [KVar.len], by simp [KVar.WF, assure2d, Points]⟩ .inf rfl 2 (by decide) (by decide) .e trivial ε hε⟩

/-- Local values, type II. -/
theorem C51_local_type2 (data : List KVar) (n : Nat) (H : MIArgs data n) (p : PNorm) (hp : p.ok = true) (k : Nat) (hk : 0 < k)
    (hkn : k < n) (b : Base) (hb : b.Valid) (ε : Nat → ℝ)
    (hε : ∀ t < n, IsKthDist n k t (jointDists p.order (data.map KVar.samples) t) (ε t)) :
    ksgMILocal data (some 0) false ⟨k, 2, p⟩ noNoise b =
      .ok ((List.range n).map (fun t => ksgII p.order n k (data.map KVar.samples) t (ε t) / b.ln)) := by
  rw [ksgLocal_val data n H ⟨k, 2, p⟩ hp (.inr rfl) hk hkn b hb ε hε]
  simp only [ksgVal_two (cfg := ⟨k, 2, p⟩) rfl]

example := C51_local_type2 [.one [0, 3], .one [1, 5]] 2 ⟨by simp, by decide, by simp [KVar.len], by simp [KVar.WF, assure2d, Points]⟩ .inf rfl 1 (by decide) (by decide) .e trivial
  (fun t => jointDists none [[[0], [3]], [[1], [5]]] t (1 - t)) (fun t ht => by
    simpa [KVar.samples, assure2d, PNorm.order] using two_isKth (jointDists none [[[0], [3]], [[1], [5]]] t) ht)

/-- The global value is the mean of the local values. -/
theorem C51_value (data : List KVar) (n : Nat) (H : MIArgs data n) (p : PNorm) (hp : p.ok = true) (k : Nat) (hk : 0 < k)
    (hkn : k < n) (b : Base) (hb : b.Valid) (ε : Nat → ℝ)
    (hε : ∀ t < n, IsKthDist n k t (jointDists p.order (data.map KVar.samples) t) (ε t)) :
    ksgMI data (some 0) false ⟨k, 1, p⟩ noNoise b =
        .ok (mean ((List.range n).map (fun t => ksgI p.order n k (data.map KVar.samples) t (ε t))) / b.ln) ∧
      ksgMI data (some 0) false ⟨k, 2, p⟩ noNoise b =
        .ok (mean ((List.range n).map (fun t => ksgII p.order n k (data.map KVar.samples) t (ε t))) / b.ln) := by
  constructor
  · rw [ksgMI_val data n H ⟨k, 1, p⟩ hp (.inl rfl) hk hkn b hb ε hε]
    simp only [ksgVal_one (cfg := ⟨k, 1, p⟩) rfl]
  · rw [ksgMI_val data n H ⟨k, 2, p⟩ hp (.inr rfl) hk hkn b hb ε hε]
    simp only [ksgVal_two (cfg := ⟨k, 2, p⟩) rfl]

example : ∃ ε : Nat → ℝ, ksgMI [.one [0, 1, 3, 2], .two ⟨2, [[0, 1], [1, 1], [3, 0], [2, 2]]⟩] (some 0) false ⟨2, 1, .inf⟩ noNoise .e =
    .ok (mean ((List.range 4).map (fun t => ksgI none 4 2 (List.map KVar.samples [.one [0, 1, 3, 2], .two ⟨2, [[0, 1], [1, 1], [3, 0], [2, 2]]⟩]) t (ε t))) / Base.e.ln) := by
  have := fun t ht => (C51_kth_distance [.one [0, 1, 3, 2], .two ⟨2, [[0, 1], [1, 1], [3, 0], [2, 2]]⟩] 4 ⟨by simp, by decide, by simp [KVar.len], by simp [KVar.WF, assure2d, Points]⟩ .inf rfl 2 (by decide) (by decide) t ht).exists
  choose! ε hε using this
  exact ⟨ε, (C51_value _ 4 ⟨by simp, by decide, by simp [KVar.len], by simp [KVar.WF, assure2d, Points]⟩ .inf rfl 2 (by decide) (by decide) .e trivial ε hε).1⟩

theorem ksgMICalc_large {cfg : KsgCfg} {n : Nat} (hn : 0 < n) {as : List Arr} (hne : as ≠ []) (ha : ∀ a ∈ as, a.rows.length = n)
    (hk : n ≤ cfg.k) {b : Base} (hb : b.Valid) :
    ksgMICalc cfg b as = .ok (List.replicate n ((ksgHead cfg - psi n) / b.ln)) := by
  have hlen : (as.headD ⟨0, []⟩).rows.length = n := by
    cases as with
    | nil => exact absurd rfl hne
    | cons a as => exact ha a (by simp)
  unfold ksgMICalc
  rw [stackArrs_ok hne ha]
  simp only [bind, Except.bind]
  rw [if_neg (by omega), hlen]
  rw [show List.replicate n ((ksgHead cfg - psi n) / b.ln) = (List.range n).map (fun _ => (ksgHead cfg - psi n) / b.ln) by
    rw [List.map_const', List.length_range]]
  refine mapM_ok (List.range n) fun t ht => ?_
  unfold ksgMIAt
  rw [kthDist_none (by simp; omega), ksgLead_ok (by omega)]
  simp only [bind, Except.bind, hlen]
  rw [mapM_ok (g := fun _ : Arr => psi n) as (fun a h => by rw [ksgArg_none, ha a h, npDigamma_nat _ hn])]
  simp only
  rw [npDigamma_nat _ hn]
  simp only
  rw [scaleBase_ok hb, List.map_const', List.sum_replicate, nsmul_eq_mul]
  congr 2
  unfold ksgHead
  ring

/-- `k` is not checked against the sample size: with `k ≥ n` the same number comes out whatever the data, `ψ(k) − ψ(n)`
for type I and `1/k` less for type II. -/
theorem C51_k_too_large (data : List KVar) (n : Nat) (H : MIArgs data n) (p : PNorm) (k : Nat) (hkn : n ≤ k) (b : Base)
    (hb : b.Valid) :
    ksgMI data (some 0) false ⟨k, 1, p⟩ noNoise b = .ok ((psi k - psi n) / b.ln) ∧
      ksgMI data (some 0) false ⟨k, 2, p⟩ noNoise b = .ok ((psi k - 1 / k - psi n) / b.ln) := by
  have hn : (n : ℝ) ≠ 0 := by exact_mod_cast H.pos.ne'
  have key : ∀ cfg : KsgCfg, cfg.ksgId = 1 ∨ cfg.ksgId = 2 → cfg.k = k →
      ksgMI data (some 0) false cfg noNoise b = .ok ((ksgHead cfg - psi n) / b.ln) := by
    intro cfg hid hk
    unfold ksgMI ksgMILocal
    rw [kmiInit_zero H]
    simp only [bind, Except.bind]
    rw [ksgIdCheck_ok hid]
    simp only
    rw [mapIdx_noNoise, ksgMICalc_large H.pos H.ne (fun a h => (H.aligned a h).1) (by omega) hb]
    simp only
    rw [meanOrNan_ok (by have := H.pos; simp; omega)]
    unfold mean
    rw [List.sum_replicate, List.length_replicate, nsmul_eq_mul]
    congr 1
    field_simp
  refine ⟨?_, ?_⟩
  · rw [key ⟨k, 1, p⟩ (.inl rfl) rfl]; simp [ksgHead]
  · rw [key ⟨k, 2, p⟩ (.inr rfl) rfl]; simp [ksgHead]

example := C51_k_too_large [.one [0, 1, 3, 2], .two ⟨2, [[0, 1], [1, 1], [3, 0], [2, 2]]⟩] 4 ⟨by simp, by decide, by simp [KVar.len], by simp [KVar.WF, assure2d, Points]⟩ .inf 6 (by decide) .e trivial

/-- Every digamma argument is positive: the result is a finite number for all data, every `k ≥ 1` (even `k ≥ n`), both types,
every norm. -/
theorem C51_finite (data : List KVar) (n : Nat) (H : MIArgs data n) (p : PNorm) (hp : p.ok = true) (k : Nat) (hk : 0 < k)
    (id : Int) (hid : id = 1 ∨ id = 2) (b : Base) (hb : b.Valid) :
    ∃ ls v, ksgMILocal data (some 0) false ⟨k, id, p⟩ noNoise b = .ok ls ∧ ls.length = n ∧
      ksgMI data (some 0) false ⟨k, id, p⟩ noNoise b = .ok v := by
  have h : ∃ ls, ksgMILocal data (some 0) false ⟨k, id, p⟩ noNoise b = .ok ls ∧ ls.length = n := by
    rcases Nat.lt_or_ge k n with hkn | hkn
    · have := fun t ht => (C51_kth_distance data n H p hp k hk hkn t ht).exists
      choose! ε hε using this
      exact ⟨_, ksgLocal_val data n H ⟨k, id, p⟩ hp hid hk hkn b hb ε hε, by simp⟩
    · unfold ksgMILocal
      rw [kmiInit_zero H]
      simp only [bind, Except.bind]
      rw [ksgIdCheck_ok hid]
      simp only
      rw [mapIdx_noNoise, ksgMICalc_large H.pos H.ne (fun a h => (H.aligned a h).1) (by simpa using hkn) hb]
      exact ⟨_, rfl, by simp⟩
  obtain ⟨ls, h1, h2⟩ := h
  refine ⟨ls, mean ls, h1, h2, ?_⟩
  unfold ksgMI
  rw [h1]
  exact meanOrNan_ok (by have := H.pos; intro h0; rw [h0] at h2; simp at h2; omega)

example := C51_finite [.one [0, 1, 3, 2], .two ⟨2, [[0, 1], [1, 1], [3, 0], [2, 2]]⟩] 4 ⟨by simp, by decide, by simp [KVar.len], by simp [KVar.WF, assure2d, Points]⟩ .inf rfl 2 (by decide) 2 (.inr rfl) .e trivial

/-- Errors: `k = 0` is an IndexError, `ksg_id` other than 1 and 2 a ValueError raised whatever the data. -/
theorem C51_bad_parameters (data : List KVar) (n : Nat) (H : MIArgs data n) (k : Nat) (id : Int) (p : PNorm) (b : Base) :
    ((id = 1 ∨ id = 2) → ksgMI data (some 0) false ⟨0, id, p⟩ noNoise b = .error .indexError) ∧
    (¬ (id = 1 ∨ id = 2) → ksgMI data (some 0) false ⟨k, id, p⟩ noNoise b = .error .valueError) := by
  constructor
  · intro hid
    unfold ksgMI ksgMILocal
    rw [kmiInit_zero H]
    simp only [bind, Except.bind]
    rw [ksgIdCheck_ok hid]
    simp only
    rw [mapIdx_noNoise]
    unfold ksgMICalc
    rw [stackArrs_ok H.ne (fun a h => (H.aligned a h).1)]
    simp [bind, Except.bind]
  · intro hid
    unfold ksgMI ksgMILocal
    rw [kmiInit_zero H]
    simp only [bind, Except.bind, ksgIdCheck, if_neg hid]

example := (C51_bad_parameters [.one [0, 1, 3, 2], .two ⟨2, [[0, 1], [1, 1], [3, 0], [2, 2]]⟩] 4 ⟨by simp, by decide, by simp [KVar.len], by simp [KVar.WF, assure2d, Points]⟩ 3 2 .inf .e).1 (.inr rfl)
example := (C51_bad_parameters [.one [0, 1, 3, 2], .two ⟨2, [[0, 1], [1, 1], [3, 0], [2, 2]]⟩] 4 ⟨by simp, by decide, by simp [KVar.len], by simp [KVar.WF, assure2d, Points]⟩ 3 5 .inf .e).2 (by simp)

end Verif
