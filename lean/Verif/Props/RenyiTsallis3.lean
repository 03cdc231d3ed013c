import Verif.Props.RenyiTsallis2
import Mathlib.NumberTheory.Harmonic.GammaDeriv
import Mathlib.Analysis.Calculus.Deriv.Slope
import Mathlib.Analysis.Real.Pi.Bounds

/-!
# C64 continued: the limit of order one, and dependence on the order
-/

namespace Verif

open Spec Filter Topology

theorem hasDerivAt_sum_exp (A : List ℝ) (s : ℝ) :
    HasDerivAt (fun s => (A.map (fun a => Real.exp (s * a))).sum) (A.map (fun a => a * Real.exp (s * a))).sum s := by
  induction A with
  | nil => simpa using hasDerivAt_const s (0 : ℝ)
  | cons a A ih =>
    simp only [List.map_cons, List.sum_cons]
    have h : HasDerivAt (fun s => Real.exp (s * a)) (a * Real.exp (s * a)) s := by
      have := ((hasDerivAt_id s).mul_const a).exp
      simpa [mul_comm] using this
    exact h.add ih

theorem hasDerivAt_logGamma {k : Nat} (hk : 0 < k) : HasDerivAt (fun s : ℝ => Real.log (Real.Gamma (k + s))) (psi k) 0 := by
  obtain ⟨n, rfl⟩ : ∃ n, k = n + 1 := ⟨k - 1, by omega⟩
  have h1 := Real.hasDerivAt_Gamma_nat n
  have h2 : HasDerivAt (fun s : ℝ => ((n + 1 : ℕ) : ℝ) + s) 1 0 := by simpa using (hasDerivAt_id (0 : ℝ)).const_add (((n + 1 : ℕ) : ℝ))
  have h3 : HasDerivAt (fun s : ℝ => Real.Gamma (((n + 1 : ℕ) : ℝ) + s)) ((n.factorial : ℝ) * (-Real.eulerMascheroniConstant + harmonic n)) 0 := by
    have := HasDerivAt.comp (0 : ℝ) (h₂ := Real.Gamma) (h := fun s : ℝ => ((n + 1 : ℕ) : ℝ) + s) (by simpa using h1) h2
    simpa [Function.comp_def] using this
  have hg : Real.Gamma (((n + 1 : ℕ) : ℝ) + 0) = n.factorial := by
    rw [add_zero]
    push_cast
    exact Real.Gamma_nat_eq_factorial n
  have hn : (n.factorial : ℝ) ≠ 0 := by exact_mod_cast n.factorial_ne_zero
  have h4 := h3.log (by rw [hg]; exact hn)
  rw [hg, mul_div_cancel_left₀ _ hn] at h4
  convert h4 using 1
  unfold psi harmonic
  push_cast
  simp

/-- the logarithm of the estimate of `∫ f^(1−s)` for positive distances -/
noncomputable def logI (k : Nat) (A : List ℝ) (s : ℝ) : ℝ :=
  Real.log (Real.Gamma k) - Real.log (Real.Gamma (k + s)) + Real.log ((A.map (fun a => Real.exp (s * a))).sum / A.length)

theorem hasDerivAt_logI {k : Nat} (hk : 0 < k) {A : List ℝ} (hA : A ≠ []) : HasDerivAt (logI k A) (- psi k + mean A) 0 := by
  have hl : (A.length : ℝ) ≠ 0 := by
    have : 0 < A.length := List.length_pos_of_ne_nil hA
    exact_mod_cast this.ne'
  have h1 := (hasDerivAt_logGamma hk).const_sub (Real.log (Real.Gamma k))
  have h2 := (hasDerivAt_sum_exp A 0).div_const (A.length : ℝ)
  have e0 : (A.map (fun a => Real.exp (0 * a))).sum / A.length = 1 := by
    simp [hA]
  have h3 := h2.log (by rw [e0]; norm_num)
  have h4 := h1.add h3
  rw [e0, div_one] at h4
  have e1 : (A.map (fun a => a * Real.exp (0 * a))).sum / A.length = mean A := by
    unfold mean
    simp
  rw [e1] at h4
  exact h4

theorem logI_zero {k : Nat} {A : List ℝ} (hA : A ≠ []) : logI k A 0 = 0 := by
  have hl : (A.length : ℝ) ≠ 0 := by
    have : 0 < A.length := List.length_pos_of_ne_nil hA
    exact_mod_cast this.ne'
  unfold logI
  simp [hA]

/-- logarithms of the ball masses -/
noncomputable def logMass (N : ℝ) (d : Nat) (L : List ℝ) : List ℝ := L.map (fun r => Real.log (N * ballVolume d (some 2) r))

theorem log_lpsI {k d : Nat} (hk : 0 < k) (hd : 0 < d) {q : ℝ} (hq1 : q ≠ 1) (hq : q < k + 1) {N : ℝ} (hN : 0 < N) {L : List ℝ}
    (hne : L ≠ []) (hL : ∀ r ∈ L, 0 < r) : Real.log (lpsI N k d q L) = logI k (logMass N d L) (1 - q) := by
  have hp : (PNorm.num 2).ok = true := by simp [PNorm.ok]
  have h1 : 0 < Real.Gamma k := Real.Gamma_pos_of_pos (by exact_mod_cast hk)
  have h2 : 0 < Real.Gamma (k + 1 - q) := Real.Gamma_pos_of_pos (by linarith)
  have hs : 1 - q ≠ 0 := fun h => hq1 (by linarith)
  have hl : 0 < (L.length : ℝ) := by
    have : 0 < L.length := List.length_pos_of_ne_nil hne
    exact_mod_cast this
  have hCs : lpsC k q ^ (1 - q) = Real.Gamma k / Real.Gamma (k + 1 - q) := by
    unfold lpsC
    rw [← Real.rpow_mul (by positivity), one_div_mul_cancel hs, Real.rpow_one]
  have hC := lpsC_pos hk hq
  have e : lpsI N k d q L = Real.Gamma k / Real.Gamma (k + 1 - q) *
      (((logMass N d L).map (fun a => Real.exp ((1 - q) * a))).sum / (logMass N d L).length) := by
    unfold lpsI mean logMass
    rw [List.map_map, List.length_map, List.length_map, ← mul_div_assoc, ← List.sum_map_mul_left]
    congr 2
    refine List.map_congr_left fun r hr => ?_
    have h0 := hL r hr
    have hv : 0 < ballVolume d (some 2) r := ballVolume_pos (p := .num 2) hd hp h0
    simp only [Function.comp]
    rw [if_neg h0.ne', show N * lpsC k q * ballVolume d (some 2) r = lpsC k q * (N * ballVolume d (some 2) r) by ring,
      Real.mul_rpow hC.le (by positivity), hCs, Real.rpow_def_of_pos (by positivity), mul_comm (1 - q)]
  have hsum : 0 < ((logMass N d L).map (fun a => Real.exp ((1 - q) * a))).sum := by
    refine List.sum_pos _ (fun x hx => ?_) (by simpa [logMass] using hne)
    obtain ⟨a, _, rfl⟩ := List.mem_map.1 hx
    exact Real.exp_pos _
  have hlen : ((logMass N d L).length : ℝ) = L.length := by simp [logMass]
  rw [e, Real.log_mul (div_pos h1 h2).ne' (div_pos hsum (by rw [hlen]; exact hl)).ne', Real.log_div h1.ne' h2.ne']
  unfold logI
  rw [add_sub_assoc]

theorem lpsLog_eq {k d : Nat} (hd : 0 < d) {N : ℝ} (hN : 0 < N) {L : List ℝ}
    (hne : L ≠ []) (hL : ∀ r ∈ L, 0 < r) : lpsLog N k d L = - psi k + mean (logMass N d L) := by
  have hp : (PNorm.num 2).ok = true := by simp [PNorm.ok]
  have hl : (L.length : ℝ) ≠ 0 := by
    have : 0 < L.length := List.length_pos_of_ne_nil hne
    exact_mod_cast this.ne'
  have e : L.map (fun ρ => if ρ = 0 then 0 else Real.log (N * Real.exp (- psi k) * ballVolume d (some 2) ρ)) =
      L.map (fun ρ => - psi k + Real.log (N * ballVolume d (some 2) ρ)) := by
    refine List.map_congr_left fun r hr => ?_
    have h0 := hL r hr
    have hv : 0 < ballVolume d (some 2) r := ballVolume_pos (p := .num 2) hd hp h0
    rw [if_neg h0.ne', show N * Real.exp (- psi k) * ballVolume d (some 2) r = Real.exp (- psi k) * (N * ballVolume d (some 2) r) by ring,
      Real.log_mul (Real.exp_pos _).ne' (by positivity), Real.log_exp]
  unfold lpsLog logMass
  rw [e]
  unfold mean
  rw [List.sum_map_add]
  simp only [List.length_map, List.map_const', List.sum_replicate, nsmul_eq_mul]
  field_simp

theorem tendsto_one_sub : Tendsto (fun q : ℝ => 1 - q) (𝓝[≠] 1) (𝓝[≠] 0) := by
  refine tendsto_nhdsWithin_iff.2 ⟨?_, ?_⟩
  · have : Tendsto (fun q : ℝ => 1 - q) (𝓝 1) (𝓝 (1 - 1)) := (continuous_const.sub continuous_id).tendsto 1
    rw [sub_self] at this
    exact this.mono_left nhdsWithin_le_nhds
  · filter_upwards [self_mem_nhdsWithin] with q hq
    exact fun h => hq (by simp at h ⊢; linarith)

theorem eventually_lt {k : Nat} (hk : 0 < k) : ∀ᶠ q : ℝ in 𝓝[≠] 1, q ≠ 1 ∧ q < k + 1 := by
  have hk0 : (0 : ℝ) < k := by exact_mod_cast hk
  have h1 : ∀ᶠ q : ℝ in 𝓝[≠] 1, q < k + 1 := nhdsWithin_le_nhds (Iio_mem_nhds (by linarith))
  filter_upwards [h1, self_mem_nhdsWithin] with q h hq
  exact ⟨hq, h⟩

theorem renyiNN_tendsto {k d : Nat} (hk : 0 < k) (hd : 0 < d) {N : ℝ} (hN : 0 < N) {L : List ℝ} (hne : L ≠ []) (hL : ∀ r ∈ L, 0 < r) :
    Tendsto (fun q => renyiNN N k d q L) (𝓝[≠] 1) (𝓝 (renyiNN N k d 1 L)) := by
  have hA : logMass N d L ≠ [] := by simpa [logMass] using hne
  have h := hasDerivAt_iff_tendsto_slope_zero.1 (hasDerivAt_logI hk hA)
  have e1 : renyiNN N k d 1 L = - psi k + mean (logMass N d L) := by
    unfold renyiNN
    rw [if_pos rfl, lpsLog_eq hd hN hne hL]
  rw [e1]
  refine (h.comp tendsto_one_sub).congr' ?_
  filter_upwards [eventually_lt hk] with q hq
  simp only [Function.comp, zero_add, logI_zero hA, sub_zero, smul_eq_mul]
  unfold renyiNN
  rw [if_neg hq.1, log_lpsI hk hd hq.1 hq.2 hN hne hL]
  field_simp

theorem tsallisNN_tendsto {k d : Nat} (hk : 0 < k) (hd : 0 < d) {N : ℝ} (hN : 0 < N) {L : List ℝ} (hne : L ≠ []) (hL : ∀ r ∈ L, 0 < r) :
    Tendsto (fun q => tsallisNN N k d q L) (𝓝[≠] 1) (𝓝 (renyiNN N k d 1 L)) := by
  have hA : logMass N d L ≠ [] := by simpa [logMass] using hne
  have h0 := (hasDerivAt_logI hk hA).exp
  rw [logI_zero hA, Real.exp_zero, one_mul] at h0
  have h := hasDerivAt_iff_tendsto_slope_zero.1 h0
  have e1 : renyiNN N k d 1 L = - psi k + mean (logMass N d L) := by
    unfold renyiNN
    rw [if_pos rfl, lpsLog_eq hd hN hne hL]
  rw [e1]
  refine (h.comp tendsto_one_sub).congr' ?_
  filter_upwards [eventually_lt hk] with q hq
  have hpos := lpsI_pos hk hq.2 hN hd (fun r hr => (hL r hr).le) (by
    obtain ⟨r, hr⟩ := List.exists_mem_of_ne_nil L hne
    exact ⟨r, hr, (hL r hr).ne'⟩)
  have hs : 1 - q ≠ 0 := fun h => hq.1 (by linarith)
  have hs' : q - 1 ≠ 0 := fun h => hq.1 (by linarith)
  simp only [Function.comp, zero_add, logI_zero hA, Real.exp_zero, smul_eq_mul]
  rw [← log_lpsI hk hd hq.1 hq.2 hN hne hL, Real.exp_log hpos]
  unfold tsallisNN
  field_simp
  ring

/-- **C64** Order one is the limit: with distinct samples the Rényi entropy is continuous in the order at 1, in every base. -/
theorem C64_renyi_limit (v : KVar) (n : Nat) (H : v.Sample n) (k : Nat) (hk : 0 < k) (hkn : k < n) (b : Base) (hb : b.Valid)
    (hpos : ∀ t < n, ∀ ε, IsKthDist n k t (dists (some 2) v.samples t) ε → 0 < ε) :
    ∃ f : ℝ → ℝ, (∀ q : ℝ, 0 < q → q < k + 1 → expEntropy renyiVal [.arr v] (.int k) (.num q) b = .ok (f q)) ∧ ContinuousAt f 1 := by
  have hp : (PNorm.num 2).ok = true := by simp [PNorm.ok]
  obtain ⟨ρ, hρ'⟩ := Sample.exists_kth (p := .num 2) H hp hk hkn
  have hρ : ∀ t < n, IsKthDist n k t (dists (some 2) v.samples t) (ρ t) := fun t ht => (hρ' t ht).2
  have h0 : ∀ t < n, 0 < ρ t := fun t ht => hpos t ht _ (hρ t ht)
  refine ⟨fun q => renyiNN (n - 1) k v.dim q ((List.range n).map ρ) / b.ln, fun q hq0 hq =>
    C64_renyi v n H k hk hkn (.num q) q (by simp [PyArg.posNumber, hq0]) hq b hb ρ hρ ⟨0, by omega, (h0 0 (by omega)).ne'⟩, ?_⟩
  rw [continuousAt_iff_punctured_nhds]
  refine (renyiNN_tendsto hk H.dim (pred_pos hk hkn) ?_ ?_).div_const _
  · simp; omega
  · intro r hr
    obtain ⟨t, ht, rfl⟩ := List.mem_map.1 hr
    exact h0 t (List.mem_range.1 ht)

/-- **C64** The Tsallis entropy tends to the order-one value *in nats* as the order tends to 1; at order one itself that value is
divided by `log(base)`, so for bases other than `e` the result jumps. -/
theorem C64_tsallis_limit (v : KVar) (n : Nat) (H : v.Sample n) (k : Nat) (hk : 0 < k) (hkn : k < n) (b : Base) (hb : b.Valid)
    (hpos : ∀ t < n, ∀ ε, IsKthDist n k t (dists (some 2) v.samples t) ε → 0 < ε) :
    ∃ (f : ℝ → ℝ) (l : ℝ), (∀ q : ℝ, 0 < q → q < k + 1 → q ≠ 1 → expEntropy tsallisVal [.arr v] (.int k) (.num q) b = .ok (f q)) ∧
      Tendsto f (𝓝[≠] 1) (𝓝 l) ∧ expEntropy tsallisVal [.arr v] (.int k) (.num 1) b = .ok (l / b.ln) := by
  have hp : (PNorm.num 2).ok = true := by simp [PNorm.ok]
  obtain ⟨ρ, hρ'⟩ := Sample.exists_kth (p := .num 2) H hp hk hkn
  have hρ : ∀ t < n, IsKthDist n k t (dists (some 2) v.samples t) (ρ t) := fun t ht => (hρ' t ht).2
  have h0 : ∀ t < n, 0 < ρ t := fun t ht => hpos t ht _ (hρ t ht)
  have hk0 : (0 : ℝ) < k := by exact_mod_cast hk
  refine ⟨fun q => tsallisNN (n - 1) k v.dim q ((List.range n).map ρ), renyiNN (n - 1) k v.dim 1 ((List.range n).map ρ),
    fun q hq0 hq h1 => C64_tsallis v n H k hk hkn (.num q) q (by simp [PyArg.posNumber, hq0]) h1 hq b ρ hρ
      ⟨0, by omega, (h0 0 (by omega)).ne'⟩, ?_, ?_⟩
  · refine tsallisNN_tendsto hk H.dim (pred_pos hk hkn) ?_ ?_
    · simp; omega
    · intro r hr
      obtain ⟨t, ht, rfl⟩ := List.mem_map.1 hr
      exact h0 t (List.mem_range.1 ht)
  · have ho : (PyArg.num 1).posNumber = some 1 := by simp [PyArg.posNumber]
    rw [C64_tsallis_one _ _ _ ho]
    exact C64_renyi v n H k hk hkn (.num 1) 1 ho (by linarith) b hb ρ hρ ⟨0, by omega, (h0 0 (by omega)).ne'⟩

example := C64_tsallis_limit (.one [0, 3]) 2 ⟨rfl, KVar.wf_one _, by decide⟩ 1 (by decide) (by decide) .e trivial
  (fun t ht ε h => by
    rw [two_kth ht h, ← two_kth ht (zeroThree_kth t ht)]; norm_num)

theorem two_point_rho {x y : ℝ} {ρ : Nat → ℝ} (hρ : ∀ t < 2, IsKthDist 2 1 t (dists (some 2) (KVar.one [x, y]).samples t) (ρ t)) :
    ρ 0 = |x - y| ∧ ρ 1 = |x - y| := by
  have hd : ∀ a b : ℝ, distance (some 2) [a] [b] = |a - b| := by
    intro a b
    simp [distance]
    rw [← one_div, ← Real.sqrt_eq_rpow, Real.sqrt_sq_eq_abs]
  constructor
  · obtain ⟨⟨s, hs, hne, e⟩, _⟩ := hρ 0 (by norm_num)
    have : s = 1 := by omega
    subst this
    rw [← e]
    exact hd x y
  · obtain ⟨⟨s, hs, hne, e⟩, _⟩ := hρ 1 (by norm_num)
    have : s = 0 := by omega
    subst this
    rw [← e, abs_sub_comm]
    exact hd y x

/-- **C64** The estimate is *not* non-increasing in the order, as the Rényi entropy of a density is: for two distinct points of the
line and `k = 1` it is `log(2|x−y|) + γ` for order 1 and the larger `log(2|x−y|) + log π` for order 3/2. -/
theorem C64_not_decreasing_in_order (x y : ℝ) (h : x ≠ y) :
    ∃ a c, expEntropy renyiVal [.arr (.one [x, y])] (.int 1) (.num 1) .e = .ok a ∧
      expEntropy renyiVal [.arr (.one [x, y])] (.int 1) (.num (3 / 2)) .e = .ok c ∧
      a = Real.log (2 * |x - y|) + Real.eulerMascheroniConstant ∧ c = Real.log (2 * |x - y|) + Real.log Real.pi ∧ a < c := by
  have hp : (PNorm.num 2).ok = true := by simp [PNorm.ok]
  have H : (KVar.one [x, y]).Sample 2 := ⟨rfl, KVar.wf_one _, Nat.one_pos⟩
  obtain ⟨ρ, hρ'⟩ := Sample.exists_kth (p := .num 2) H hp (k := 1) (by norm_num) (by norm_num)
  have hρ : ∀ t < 2, IsKthDist 2 1 t (dists (some 2) (KVar.one [x, y]).samples t) (ρ t) := fun t ht => (hρ' t ht).2
  obtain ⟨e0, e1⟩ := two_point_rho hρ
  have h0 : 0 < |x - y| := abs_pos.2 (sub_ne_zero.2 h)
  have hv : ballVolume 1 (some 2) |x - y| = 2 * |x - y| := by
    have := ballVolume_eq (d := 1) (p := .num 2) (by norm_num) hp h0.le
    rw [show (PNorm.num 2).order = some 2 from rfl] at this
    rw [this]
    simp [unitBallVolume]
  have hL : (List.range 2).map ρ = [|x - y|, |x - y|] := by
    simp [List.range_succ, e0, e1]
  have hlg : Real.eulerMascheroniConstant < Real.log Real.pi := by
    have h1 := Real.eulerMascheroniConstant_lt_two_thirds
    have h2 : 1 < Real.log Real.pi := by
      rw [Real.lt_log_iff_exp_lt Real.pi_pos]
      have := Real.exp_one_lt_d9
      have := Real.pi_gt_three
      linarith
    linarith
  refine ⟨_, _, C64_renyi _ 2 H 1 (by norm_num) (by norm_num) (.num 1) 1 (by simp [PyArg.posNumber]) (by norm_num) .e
    (by simp [Base.Valid]) ρ hρ ⟨0, by norm_num, by rw [e0]; exact h0.ne'⟩,
    C64_renyi _ 2 H 1 (by norm_num) (by norm_num) (.num (3 / 2)) (3 / 2) (by simp [PyArg.posNumber]) (by norm_num) .e
    (by simp [Base.Valid]) ρ hρ ⟨0, by norm_num, by rw [e0]; exact h0.ne'⟩, ?_⟩
  have hdim : (KVar.one [x, y]).dim = 1 := rfl
  have hln : Base.e.ln = 1 := rfl
  have psi1 : psi 1 = - Real.eulerMascheroniConstant := by simp [psi]
  have hC : lpsC 1 (3 / 2) = Real.pi := by
    unfold lpsC
    rw [show ((1 : ℕ) : ℝ) + 1 - 3 / 2 = 1 / 2 by norm_num, Real.Gamma_one_half_eq, Nat.cast_one, Real.Gamma_one,
      show (1 : ℝ) / (1 - 3 / 2) = -2 by norm_num, Real.rpow_neg (by positivity), one_div, Real.inv_rpow (by positivity), inv_inv,
      Real.rpow_two, Real.sq_sqrt Real.pi_pos.le]
  have ea : renyiNN (((2 : ℕ) : ℝ) - 1) 1 (KVar.one [x, y]).dim 1 ((List.range 2).map ρ) / Base.e.ln =
      Real.log (2 * |x - y|) + Real.eulerMascheroniConstant := by
    rw [hL, hdim, hln, div_one]
    unfold renyiNN lpsLog mean
    simp only [if_true, List.map_cons, List.map_nil, List.sum_cons, List.sum_nil, List.length_cons, List.length_nil, if_neg h0.ne', hv, psi1,
      neg_neg]
    rw [Real.log_mul (by norm_num) (by positivity), Real.log_mul (by norm_num) (Real.exp_pos _).ne', Real.log_exp]
    norm_num
    ring
  have ec : renyiNN (((2 : ℕ) : ℝ) - 1) 1 (KVar.one [x, y]).dim (3 / 2) ((List.range 2).map ρ) / Base.e.ln =
      Real.log (2 * |x - y|) + Real.log Real.pi := by
    rw [hL, hdim, hln, div_one]
    unfold renyiNN lpsI mean
    rw [if_neg (by norm_num)]
    simp only [List.map_cons, List.map_nil, List.sum_cons, List.sum_nil, List.length_cons, List.length_nil, if_neg h0.ne', hv, hC]
    rw [show ∀ z : ℝ, (z + (z + 0)) / ((0 + 1 + 1 : ℕ) : ℝ) = z from fun z => by push_cast; ring,
      show (((2 : ℕ) : ℝ) - 1) * Real.pi * (2 * |x - y|) = Real.pi * (2 * |x - y|) by norm_num, Real.log_rpow (by positivity),
      Real.log_mul Real.pi_pos.ne' (by positivity)]
    ring
  exact ⟨ea, ec, by rw [ea, ec]; linarith⟩

/-- Concrete case: the hypotheses of the limit theorems hold for two distinct points. -/
example : ∃ f : ℝ → ℝ, (∀ q : ℝ, 0 < q → q < (1 : ℕ) + 1 → expEntropy renyiVal [.arr (.one [0, 3])] (.int (1 : ℕ)) (.num q) .e = .ok (f q)) ∧
    ContinuousAt f 1 :=
  C64_renyi_limit (.one [0, 3]) 2 ⟨rfl, KVar.wf_one _, Nat.one_pos⟩ 1 (by norm_num) (by norm_num) .e (by simp [Base.Valid]) (by
    intro t ht ε hε
    have hp : (PNorm.num 2).ok = true := by simp [PNorm.ok]
    obtain ⟨ρ, hρ⟩ := Sample.exists_kth (v := .one [0, 3]) (n := 2) (p := .num 2) ⟨rfl, KVar.wf_one _, Nat.one_pos⟩ hp (k := 1)
      (by norm_num) (by norm_num)
    have h := two_point_rho (fun t ht => (hρ t ht).2)
    have e := isKthDist_unique hε (hρ t ht).2
    have : t = 0 ∨ t = 1 := by omega
    rcases this with rfl | rfl
    · rw [e, h.1]; norm_num
    · rw [e, h.2]; norm_num)

end Verif
