import Verif.Props.KsgCMI2
import Verif.Props.Volume
import Verif.Lemmas.Bias

/-!
# C52: Kozachenko–Leonenko entropy

`klEntropy [.arr v] ⟨.int k, id, false, p⟩ none none b` is `entropy(v, approach="kl", k=k, ksg_id=id, noise_level=0,
minkowski_p=p, base=b)`; a tuple argument is joint entropy, two arguments cross-entropy.
-/

namespace Verif

open Spec

/-- number of columns -/
def KVar.dim (v : KVar) : Nat := (assure2d v).cols

/-- one well-formed variable with `n` samples of dimension at least one -/
structure KVar.Sample (v : KVar) (n : Nat) : Prop where
  len : v.len = n
  wf : v.WF
  dim : 0 < v.dim

theorem ballVolume_eq {d : Nat} (hd : 0 < d) {p : PNorm} (hp : p.ok = true) {r : ℝ} (hr : 0 ≤ r) :
    ballVolume d p.order r = unitBallVolume d r p := by
  match p with
  | .inf =>
    change (MeasureTheory.volume (maxBall d r)).toReal = _
    rw [C50_volume_max d r hr, ENNReal.toReal_ofReal]
    exact pow_nonneg (by linarith) d
  | .num p =>
    have hp1 : 1 ≤ p := by simpa [PNorm.ok] using hp
    change (MeasureTheory.volume (lpBall d p r)).toReal = _
    rw [C50_volume d hd r hr p hp1, ENNReal.toReal_ofReal]
    rcases hr.eq_or_lt with rfl | hr
    · rw [C50_branches_agree]
      unfold lpVolume
      simp [hd.ne']
    · exact (C50_pos d r hr (.num p) hp).le

theorem ballVolume_pos {d : Nat} (hd : 0 < d) {p : PNorm} (hp : p.ok = true) {r : ℝ} (hr : 0 < r) : 0 < ballVolume d p.order r := by
  rw [ballVolume_eq hd hp hr.le]
  exact C50_pos d r hr p hp

/-- the leading digamma term: `ψ(k)`, less `1/k` for the second variant -/
noncomputable def klHead (id : Int) (k : Nat) : ℝ := if id = 2 then psi k - 1 / (k : ℝ) else psi k

theorem klConst_ok {k n d : Nat} (hk : 0 < k) (hn : 0 < n) {p : PNorm} (hp : p.ok = true) (id : Int) :
    klConst k id p n d = .ok (- klHead id k + psi n + Real.log (unitBallVolume d (1 / 2) p)) := by
  unfold klConst klHead
  rw [npDigamma_nat _ hk, npDigamma_nat _ hn, npLog_ok (C50_pos d _ (by norm_num) p hp)]
  simp only [bind, Except.bind]
  push_cast
  rfl

/-- local value from a finite distance -/
theorem klLocalAt_ok {k n d : Nat} (hk : 0 < k) (hn : 0 < n) (hd : 0 < d) {p : PNorm} (hp : p.ok = true) (id : Int) {e : ℝ} (he : 0 ≤ e)
    {b : Base} (hb : b.Valid) :
    klLocalAt k id p n d (some e) b = .ok ((if e = 0 then 0 else psi n - klHead id k + Real.log (ballVolume d p.order e)) / b.ln) := by
  unfold klLocalAt
  rw [klConst_ok hk hn hp id]
  simp only [Except.bind, klLocalFrom]
  split_ifs with h
  · rw [scaleBase_ok hb]
  · have he' : 0 < e := lt_of_le_of_ne he (Ne.symm h)
    rw [npLog_ok (by linarith)]
    simp only
    rw [scaleBase_ok hb, ballVolume_eq hd hp he, ← C50_log_volume d e he' p hp]
    congr 2
    ring

theorem klInit_arr {v : KVar} {k : Nat} (hk : 0 < k) {id : Int} (hid : id = 1 ∨ id = 2) {p : PNorm} (hp : p.ok = true) :
    klInit [.arr v] ⟨.int k, id, false, p⟩ = .ok [.arr v] := by
  simp only [klInit, PyArg.posInt, hp, hid, bind, Except.bind]
  simp [hk]

theorem klSimple_ok {a : Arr} {n : Nat} (hl : a.rows.length = n) (hw : Points a.rows a.cols) (hd : 0 < a.cols) {p : PNorm}
    (hp : p.ok = true) {k : Nat} (hk : 0 < k) (hkn : k < n) (id : Int) {b : Base} (hb : b.Valid) {ε : Nat → ℝ}
    (hε : ∀ t < n, IsKthDist n k t (dists p.order a.rows t) (ε t)) :
    klSimple k id p a b = .ok ((List.range n).map (fun t =>
      (if ε t = 0 then 0 else psi n - klHead id k + Real.log (ballVolume a.cols p.order (ε t))) / b.ln)) := by
  unfold klSimple
  conv_lhs => arg 2; rw [list_eq_range a.rows [] hl]
  rw [List.mapM_map]
  refine mapM_ok (List.range n) fun t ht => ?_
  have ht' := List.mem_range.1 ht
  obtain ⟨e, h1, h2, h3⟩ := kthDist_isKth hp hl hw ht' hk hkn
  have := isKthDist_unique h3 (hε t ht')
  subst this
  simp only [Function.comp, Int.toNat_natCast]
  rw [h1, hl, klLocalAt_ok hk (by omega) hd hp id h2 hb]

/-- **C52** Local values: at every sample `ψ(n) − ψ(k) + log Vol(B(ε))`, where `ε` is the distance to the `k`-th nearest other
sample; samples with `k` coinciding others contribute 0. -/
theorem C52_local (v : KVar) (n : Nat) (H : v.Sample n) (p : PNorm) (hp : p.ok = true) (k : Nat) (hk : 0 < k) (hkn : k < n)
    (b : Base) (hb : b.Valid) (ε : Nat → ℝ) (hε : ∀ t < n, IsKthDist n k t (dists p.order v.samples t) (ε t)) :
    klEntropyLocal [.arr v] ⟨.int k, 1, false, p⟩ none b =
      .ok ((List.range n).map (fun t => (if ε t = 0 then 0 else klTerm p.order n k v.dim (ε t)) / b.ln)) := by
  unfold klEntropyLocal
  rw [klInit_arr hk (.inl rfl) hp]
  simp only [bind, Except.bind, PyArg.val, jitter]
  rw [klSimple_ok (arr_aligned H.len H.wf).1 H.wf H.dim hp hk hkn 1 hb hε]
  rfl

/-- local values for both variants -/
theorem kl_local_val (v : KVar) (n : Nat) (H : v.Sample n) (p : PNorm) (hp : p.ok = true) (k : Nat) (hk : 0 < k) (hkn : k < n)
    (id : Int) (hid : id = 1 ∨ id = 2) (b : Base) (hb : b.Valid) (ε : Nat → ℝ)
    (hε : ∀ t < n, IsKthDist n k t (dists p.order v.samples t) (ε t)) :
    klEntropyLocal [.arr v] ⟨.int k, id, false, p⟩ none b =
      .ok ((List.range n).map (fun t =>
        (if ε t = 0 then 0 else psi n - klHead id k + Real.log (ballVolume v.dim p.order (ε t))) / b.ln)) := by
  unfold klEntropyLocal
  rw [klInit_arr hk hid hp]
  simp only [bind, Except.bind, PyArg.val, jitter]
  exact klSimple_ok (arr_aligned H.len H.wf).1 H.wf H.dim hp hk hkn id hb hε

theorem klEntropy_arr (v : KVar) (cfg : KlCfg) (noise noiseQ : Option (Nat → Nat → ℝ)) (b : Base)
    (hi : klInit [.arr v] cfg = .ok [.arr v]) :
    klEntropy [.arr v] cfg noise noiseQ b = (klEntropyLocal [.arr v] cfg noise b).bind meanOrNan := by
  unfold klEntropy
  rw [hi]
  rfl

theorem kl_val (v : KVar) (n : Nat) (H : v.Sample n) (p : PNorm) (hp : p.ok = true) (k : Nat) (hk : 0 < k) (hkn : k < n)
    (id : Int) (hid : id = 1 ∨ id = 2) (b : Base) (hb : b.Valid) (ε : Nat → ℝ)
    (hε : ∀ t < n, IsKthDist n k t (dists p.order v.samples t) (ε t)) :
    klEntropy [.arr v] ⟨.int k, id, false, p⟩ none none b =
      .ok (mean ((List.range n).map (fun t =>
        if ε t = 0 then 0 else psi n - klHead id k + Real.log (ballVolume v.dim p.order (ε t)))) / b.ln) := by
  rw [klEntropy_arr v _ none none b (klInit_arr hk hid hp), kl_local_val v n H p hp k hk hkn id hid b hb ε hε]
  simp only [Except.bind]
  rw [meanOrNan_ok (by simp; omega), mean_map_div]

/-- **C52** The entropy is the mean of the local values. -/
theorem C52_value (v : KVar) (n : Nat) (H : v.Sample n) (p : PNorm) (hp : p.ok = true) (k : Nat) (hk : 0 < k) (hkn : k < n)
    (b : Base) (hb : b.Valid) (ε : Nat → ℝ) (hε : ∀ t < n, IsKthDist n k t (dists p.order v.samples t) (ε t)) :
    klEntropy [.arr v] ⟨.int k, 1, false, p⟩ none none b =
      .ok (mean ((List.range n).map (fun t => if ε t = 0 then 0 else klTerm p.order n k v.dim (ε t))) / b.ln) :=
  kl_val v n H p hp k hk hkn 1 (.inl rfl) b hb ε hε

/-- For distinct samples this is exactly the Kozachenko–Leonenko estimate. -/
theorem C52_value_distinct (v : KVar) (n : Nat) (H : v.Sample n) (p : PNorm) (hp : p.ok = true) (k : Nat) (hk : 0 < k) (hkn : k < n)
    (b : Base) (hb : b.Valid) (ε : Nat → ℝ) (hε : ∀ t < n, IsKthDist n k t (dists p.order v.samples t) (ε t))
    (hpos : ∀ t < n, 0 < ε t) :
    klEntropy [.arr v] ⟨.int k, 1, false, p⟩ none none b =
        .ok ((psi n - psi k + mean ((List.range n).map (fun t => Real.log (ballVolume v.dim p.order (ε t))))) / b.ln) ∧
      klEntropy [.arr v] ⟨.int k, 2, false, p⟩ none none b =
        .ok ((psi n - psi k + 1 / k + mean ((List.range n).map (fun t => Real.log (ballVolume v.dim p.order (ε t))))) / b.ln) := by
  have hn : (n : ℝ) ≠ 0 := by have : 0 < n := by omega
                              exact_mod_cast this.ne'
  have key : ∀ c : ℝ, mean ((List.range n).map (fun t => if ε t = 0 then 0 else c + Real.log (ballVolume v.dim p.order (ε t)))) =
      c + mean ((List.range n).map (fun t => Real.log (ballVolume v.dim p.order (ε t)))) := by
    intro c
    have e : (List.range n).map (fun t => if ε t = 0 then 0 else c + Real.log (ballVolume v.dim p.order (ε t))) =
        (List.range n).map (fun t => c + Real.log (ballVolume v.dim p.order (ε t))) :=
      List.map_congr_left fun t ht => by rw [if_neg (hpos t (List.mem_range.1 ht)).ne']
    rw [e]
    unfold mean
    rw [List.sum_map_add]
    simp only [List.length_map, List.length_range, List.map_const', List.sum_replicate, nsmul_eq_mul]
    field_simp
  constructor
  · rw [kl_val v n H p hp k hk hkn 1 (.inl rfl) b hb ε hε, key]
    simp [klHead]
  · rw [kl_val v n H p hp k hk hkn 2 (.inr rfl) b hb ε hε, key]
    congr 2
    simp only [klHead, if_true]
    ring

example := C52_value_distinct (.one [0, 3]) 2 ⟨rfl, KVar.wf_one _, by decide⟩ .inf rfl 1 (by decide) (by decide) .e trivial (fun _ => 3)
  (fun t ht => by
    have h := two_isKth (dists none (KVar.samples (.one [0, 3])) t) ht
    have e : dists none (KVar.samples (.one [0, 3])) t (1 - t) = 3 := by
      interval_cases t
      · exact (maxline_distance 0 3).trans (by norm_num)
      · exact (maxline_distance 3 0).trans (by norm_num)
    rwa [e] at h)
  (fun _ _ => by norm_num)

theorem Sample.exists_kth {v : KVar} {n : Nat} (H : v.Sample n) {p : PNorm} (hp : p.ok = true) {k : Nat} (hk : 0 < k) (hkn : k < n) :
    ∃ ε : Nat → ℝ, ∀ t < n, 0 ≤ ε t ∧ IsKthDist n k t (dists p.order v.samples t) (ε t) := by
  have : ∀ t, t < n → ∃ ε, 0 ≤ ε ∧ IsKthDist n k t (dists p.order v.samples t) ε := by
    intro t ht
    obtain ⟨ε, _, h2, h3⟩ := kthDist_isKth hp (arr_aligned H.len H.wf).1 H.wf ht hk hkn
    exact ⟨ε, h2, h3⟩
  choose! ε hε using this
  exact ⟨ε, hε⟩

/-- The result is a finite number whenever `1 ≤ k < n`. -/
theorem C52_finite (v : KVar) (n : Nat) (H : v.Sample n) (p : PNorm) (hp : p.ok = true) (k : Nat) (hk : 0 < k) (hkn : k < n)
    (id : Int) (hid : id = 1 ∨ id = 2) (b : Base) (hb : b.Valid) :
    ∃ h, klEntropy [.arr v] ⟨.int k, id, false, p⟩ none none b = .ok h := by
  obtain ⟨ε, hε⟩ := Sample.exists_kth H hp hk hkn
  exact ⟨_, kl_val v n H p hp k hk hkn id hid b hb ε (fun t ht => (hε t ht).2)⟩

example := C52_finite (.one [0, 1, 3]) 3 ⟨rfl, KVar.wf_one _, by decide⟩ .inf rfl 2 (by decide) (by decide) 2 (.inr rfl) .e trivial

example : ∃ ε : Nat → ℝ, (∀ t < 3, IsKthDist 3 2 t (dists none (KVar.samples (.one [0, 1, 3])) t) (ε t)) ∧
    klEntropyLocal [.arr (.one [0, 1, 3])] ⟨.int 2, 1, false, .inf⟩ none .e =
      .ok ((List.range 3).map (fun t => (if ε t = 0 then 0 else klTerm none 3 2 1 (ε t)) / Base.e.ln)) := by
  obtain ⟨ε, h⟩ := Sample.exists_kth (v := (.one [0, 1, 3])) (n := 3) ⟨rfl, KVar.wf_one _, by decide⟩ (p := .inf) rfl (k := 2) (by decide) (by decide)
  exact ⟨ε, fun t ht => (h t ht).2, C52_local _ 3 ⟨rfl, KVar.wf_one _, by decide⟩ .inf rfl 2 (by decide) (by decide) .e trivial ε (fun t ht => (h t ht).2)⟩

example : ∃ ε : Nat → ℝ, klEntropy [.arr (.one [0, 1, 3])] ⟨.int 2, 1, false, .inf⟩ none none .e =
      .ok (mean ((List.range 3).map (fun t => if ε t = 0 then 0 else klTerm none 3 2 1 (ε t))) / Base.e.ln) := by
  obtain ⟨ε, h⟩ := Sample.exists_kth (v := (.one [0, 1, 3])) (n := 3) ⟨rfl, KVar.wf_one _, by decide⟩ (p := .inf) rfl (k := 2) (by decide) (by decide)
  exact ⟨ε, C52_value _ 3 ⟨rfl, KVar.wf_one _, by decide⟩ .inf rfl 2 (by decide) (by decide) .e trivial ε (fun t ht => (h t ht).2)⟩

/-- The order of the samples does not matter. -/
theorem C52_sample_order (v : KVar) (n : Nat) (H : v.Sample n) (σ : List Nat) (hσ : σ.Perm (List.range n)) (p : PNorm)
    (hp : p.ok = true) (k : Nat) (hk : 0 < k) (hkn : k < n) (id : Int) (hid : id = 1 ∨ id = 2) (b : Base) (hb : b.Valid) :
    klEntropy [.arr (v.reorder σ)] ⟨.int k, id, false, p⟩ none none b = klEntropy [.arr v] ⟨.int k, id, false, p⟩ none none b := by
  have hdim : (v.reorder σ).dim = v.dim := by cases v <;> rfl
  have H' : (v.reorder σ).Sample n := ⟨reorder_len hσ v, reorder_wf hσ H.len H.wf, by rw [hdim]; exact H.dim⟩
  have hf := perm_index hσ
  have hlt : ∀ t < n, σ.getD t 0 < n := fun t ht =>
    List.mem_range.1 (hf.mem_iff.1 (List.mem_map.2 ⟨t, List.mem_range.2 ht, rfl⟩))
  obtain ⟨ε, hε⟩ := Sample.exists_kth H hp hk hkn
  rw [kl_val v n H p hp k hk hkn id hid b hb ε (fun t ht => (hε t ht).2),
    kl_val _ n H' p hp k hk hkn id hid b hb (fun t => ε (σ.getD t 0)) (fun t ht => by
      refine isKthDist_congr (fun s hs => ?_) (isKthDist_relabel hf ht (hε _ (hlt t ht)).2)
      unfold dists
      rw [reorder_samples hσ H.len ht, reorder_samples hσ H.len hs]), hdim]
  congr 2
  have hm := mean_perm hf (fun t => if ε t = 0 then 0 else psi n - klHead id k + Real.log (ballVolume v.dim p.order (ε t)))
  rw [List.map_map] at hm
  exact hm

example := C52_sample_order (.one [0, 1, 3]) 3 ⟨rfl, KVar.wf_one _, by decide⟩ [2, 0, 1] (by decide) .inf rfl 2 (by decide) (by decide) 1 (.inl rfl) .e trivial

theorem ballVolume_scale {d : Nat} (hd : 0 < d) {p : PNorm} (hp : p.ok = true) {a r : ℝ} (ha : 0 ≤ a) (hr : 0 ≤ r) :
    ballVolume d p.order (a * r) = a ^ d * ballVolume d p.order r := by
  rw [ballVolume_eq hd hp hr, ballVolume_eq hd hp (mul_nonneg ha hr), C50_scale]

/-- Scaling by `c ≠ 0` and shifting every column: with distinct samples the entropy grows by `d log|c|`. -/
theorem C52_affine (v : KVar) (n : Nat) (H : v.Sample n) (c : ℝ) (hc : c ≠ 0) (o : Nat → ℝ) (p : PNorm)
    (hp : p.ok = true) (k : Nat) (hk : 0 < k) (hkn : k < n) (id : Int) (hid : id = 1 ∨ id = 2) (b : Base) (hb : b.Valid)
    (hpos : ∀ t < n, ∀ ε, IsKthDist n k t (dists p.order v.samples t) ε → 0 < ε) :
    ∃ h, klEntropy [.arr v] ⟨.int k, id, false, p⟩ none none b = .ok h ∧
      klEntropy [.arr (v.affine c o)] ⟨.int k, id, false, p⟩ none none b = .ok (h + v.dim * Real.log |c| / b.ln) := by
  have hc' : 0 < |c| := abs_pos.2 hc
  have hdim : (v.affine c o).dim = v.dim := by cases v <;> rfl
  have H' : (v.affine c o).Sample n := ⟨by rw [affine_len]; exact H.len, affine_wf c o H.wf, by rw [hdim]; exact H.dim⟩
  obtain ⟨ε, hε⟩ := Sample.exists_kth H hp hk hkn
  have hd : ∀ t < n, ∀ s < n, dists p.order (v.affine c o).samples t s = |c| * dists p.order v.samples t s := by
    intro t ht s hs
    have h1 := dists_eq (p := p) (arr_aligned H.len H.wf) ht hs
    have h2 := dists_eq (p := p) (arr_aligned H'.len H'.wf) ht hs
    have e := fun u hu => affine_samples c o v u (by rw [H.len]; exact hu)
    unfold KVar.samples at e ⊢
    rw [h1, h2, e t ht, e s hs, absDiffs_affine, normOf_smul hp hc'.le (absDiffs_nonneg _ _)]
  refine ⟨_, kl_val v n H p hp k hk hkn id hid b hb ε (fun t ht => (hε t ht).2), ?_⟩
  rw [kl_val _ n H' p hp k hk hkn id hid b hb (fun t => |c| * ε t) (fun t ht =>
    isKthDist_congr (fun s hs => (hd t ht s hs).symm) (isKthDist_smul hc' (hε t ht).2)), ← add_div, hdim]
  congr 2
  have hn : (n : ℝ) ≠ 0 := by have : 0 < n := by omega
                              exact_mod_cast this.ne'
  have e : (v.dim : ℝ) * Real.log |c| = mean ((List.range n).map (fun _ => (v.dim : ℝ) * Real.log |c|)) := by
    unfold mean
    rw [List.map_const', List.sum_replicate, List.length_replicate, List.length_range, nsmul_eq_mul]
    field_simp
  rw [e]
  unfold mean
  simp only [List.length_map]
  rw [← add_div, ← List.sum_map_add]
  congr 2
  refine List.map_congr_left fun t ht => ?_
  have ht' := List.mem_range.1 ht
  have h0 := hpos t ht' _ (hε t ht').2
  rw [if_neg h0.ne', if_neg (mul_pos hc' h0).ne', ballVolume_scale H.dim hp hc'.le h0.le,
    Real.log_mul (by positivity) (ballVolume_pos H.dim hp h0).ne', Real.log_pow]
  ring

example := C52_affine (.one [0, 1, 3]) 3 ⟨rfl, KVar.wf_one _, by decide⟩ (-2) (by norm_num) (fun _ => 5) .inf rfl 2 (by decide) (by decide) 1 (.inl rfl) .e trivial
  (fun t ht ε h => by
    obtain ⟨⟨s, hs, hne, rfl⟩, _⟩ := h
    interval_cases t <;> interval_cases s <;>
      first | exact absurd rfl hne | exact lt_of_lt_of_eq (by norm_num) (maxline_distance _ _).symm)

/-- Shifting never changes the result, with or without coinciding samples. -/
theorem C52_shift (v : KVar) (n : Nat) (H : v.Sample n) (o : Nat → ℝ) (p : PNorm)
    (hp : p.ok = true) (k : Nat) (hk : 0 < k) (hkn : k < n) (id : Int) (hid : id = 1 ∨ id = 2) (b : Base) (hb : b.Valid) :
    klEntropy [.arr (v.affine 1 o)] ⟨.int k, id, false, p⟩ none none b = klEntropy [.arr v] ⟨.int k, id, false, p⟩ none none b := by
  have hdim : (v.affine 1 o).dim = v.dim := by cases v <;> rfl
  have H' : (v.affine 1 o).Sample n := ⟨by rw [affine_len]; exact H.len, affine_wf 1 o H.wf, by rw [hdim]; exact H.dim⟩
  obtain ⟨ε, hε⟩ := Sample.exists_kth H hp hk hkn
  rw [kl_val v n H p hp k hk hkn id hid b hb ε (fun t ht => (hε t ht).2),
    kl_val _ n H' p hp k hk hkn id hid b hb ε (fun t ht => by
      refine isKthDist_congr (fun s hs => ?_) (hε t ht).2
      have h1 := dists_eq (p := p) (arr_aligned H.len H.wf) ht hs
      have h2 := dists_eq (p := p) (arr_aligned H'.len H'.wf) ht hs
      have e := fun u hu => affine_samples 1 o v u (by rw [H.len]; exact hu)
      unfold KVar.samples at e ⊢
      rw [h1, h2, e t ht, e s hs, absDiffs_affine]
      simp), hdim]

example := C52_shift (.one [0, 1, 3]) 3 ⟨rfl, KVar.wf_one _, by decide⟩ (fun _ => 5) .inf rfl 2 (by decide) (by decide) 1 (.inl rfl) .e trivial

/-- Too few samples, `n ≤ k`: the `k`-th neighbour is at infinite distance and the result is not a finite number (no error is
raised by the library). -/
theorem C52_k_too_large (v : KVar) (n : Nat) (H : v.Sample n) (hn : 0 < n) (p : PNorm) (hp : p.ok = true) (k : Nat) (hkn : n ≤ k)
    (id : Int) (hid : id = 1 ∨ id = 2) (b : Base) :
    klEntropy [.arr v] ⟨.int k, id, false, p⟩ none none b = .error .nonFinite := by
  rw [klEntropy_arr v _ none none b (klInit_arr (by omega) hid hp)]
  unfold klEntropyLocal
  rw [klInit_arr (by omega) hid hp]
  simp only [bind, Except.bind, PyArg.val, jitter]
  have hl := (arr_aligned H.len H.wf).1
  have : klSimple k id p (assure2d v) b = .error .nonFinite := by
    unfold klSimple
    obtain ⟨x, xs, hx⟩ : ∃ x xs, (assure2d v).rows = x :: xs := by
      cases h : (assure2d v).rows with
      | nil => rw [h] at hl; simp at hl; omega
      | cons x xs => exact ⟨x, xs, rfl⟩
    conv_lhs => arg 2; rw [hx]
    rw [List.mapM_cons, kthDist_none (by simp; omega)]
    unfold klLocalAt
    rw [klConst_ok (by omega) (by omega) hp id]
    simp [klLocalFrom, Except.bind, bind]
  rw [this]

example := C52_k_too_large (.one [0, 1, 3]) 3 ⟨rfl, KVar.wf_one _, by decide⟩ (by decide) .inf rfl 4 (by decide) 1 (.inl rfl) .e

/-- Parameter errors: `k` not a positive integer, negative noise, Minkowski order below one, `ksg_id` other than 1 and 2, all
whatever the data. -/
theorem C52_parameter_errors (args : List KArg) (cfg : KlCfg) (noise noiseQ : Option (Nat → Nat → ℝ)) (b : Base)
    (h : cfg.k.posInt = false ∨ cfg.noiseNegative = true ∨ cfg.p.ok = false ∨ ¬ (cfg.ksgId = 1 ∨ cfg.ksgId = 2)) :
    klEntropy args cfg noise noiseQ b = .error .valueError := by
  have : klInit args cfg = .error .valueError := by
    unfold klInit
    by_cases h1 : cfg.k.posInt = false
    · rw [if_pos h1]
    · by_cases h2 : cfg.noiseNegative = true
      · rw [if_neg h1, if_pos h2]
      · by_cases h3 : cfg.p.ok = false
        · rw [if_neg h1, if_neg h2, if_pos h3]
        · have h4 : ¬ (cfg.ksgId = 1 ∨ cfg.ksgId = 2) := by tauto
          rw [if_neg h1, if_neg h2, if_neg h3]
          simp only [bind, Except.bind, if_neg h4]
          split <;> first | rfl | (split_ifs <;> rfl)
  unfold klEntropy
  rw [this]
  rfl

example := C52_parameter_errors [.arr (.one [0, 1, 3])] ⟨.int 0, 1, false, .inf⟩ none none .e (.inl (by decide))

/-- The noise only enters through the data. -/
theorem C52_noise (v : KVar) (cfg : KlCfg) (e e' : Option (Nat → Nat → ℝ)) (b : Base) :
    klEntropy [.arr v] cfg e e' b = klEntropy [.arr (v.noisy e)] cfg none e' b := by
  have h : ∀ w : KVar, klInit [.arr w] cfg = (klInit [.arr v] cfg).map (fun _ => [.arr w]) := by
    intro w
    simp only [klInit, bind, Except.bind]
    split_ifs <;> rfl
  have h1 : klInit [.arr v] cfg = .ok [.arr v] ∨ ∃ x, klInit [.arr v] cfg = .error x := by
    simp only [klInit, bind, Except.bind]
    split_ifs <;> simp
  rcases h1 with h1 | ⟨x, h1⟩
  · have h2 := h (v.noisy e)
    rw [h1] at h2
    simp only [Except.map] at h2
    simp only [klEntropy, klEntropyLocal, h1, h2, bind, Except.bind]
    rfl
  · have h2 := h (v.noisy e)
    rw [h1] at h2
    simp only [Except.map] at h2
    simp only [klEntropy, h1, h2, bind, Except.bind]

end Verif
