import Verif.Props.RenyiTsallis

/-!
# C64 continued: invariances, joint and cross-entropy
-/

namespace Verif

open Spec

theorem mean_perm_list {l l' : List ℝ} (h : l.Perm l') (f : ℝ → ℝ) : mean (l.map f) = mean (l'.map f) := mean_perm h f

theorem lpsI_perm {L L' : List ℝ} (h : L.Perm L') (N : ℝ) (k d : Nat) (q : ℝ) : lpsI N k d q L = lpsI N k d q L' :=
  mean_perm_list h _

theorem renyiNN_perm {L L' : List ℝ} (h : L.Perm L') (N : ℝ) (k d : Nat) (q : ℝ) : renyiNN N k d q L = renyiNN N k d q L' := by
  have h2 : lpsLog N k d L = lpsLog N k d L' := mean_perm_list h _
  unfold renyiNN
  rw [lpsI_perm h, h2]

theorem lpsI_scale {k d : Nat} (hk : 0 < k) (hd : 0 < d) {q : ℝ} (hq : q < k + 1) {N : ℝ} (hN : 0 ≤ N) {c : ℝ} (hc : 0 < c) {L : List ℝ}
    (hL : ∀ r ∈ L, 0 ≤ r) : lpsI N k d q (L.map (fun r => c * r)) = (c ^ d) ^ (1 - q) * lpsI N k d q L := by
  have hp : (PNorm.num 2).ok = true := by simp [PNorm.ok]
  have hC := lpsC_pos hk hq
  unfold lpsI mean
  rw [List.map_map, List.length_map, List.length_map, ← mul_div_assoc, ← List.sum_map_mul_left]
  congr 2
  refine List.map_congr_left fun r hr => ?_
  have h0 := hL r hr
  simp only [Function.comp]
  by_cases hz : r = 0
  · simp [hz]
  · have hv : 0 ≤ ballVolume d (some 2) r := by unfold ballVolume; exact ENNReal.toReal_nonneg
    have hs := ballVolume_scale (p := .num 2) hd hp hc.le h0
    rw [if_neg hz, if_neg (mul_ne_zero hc.ne' hz), show ballVolume d (some 2) (c * r) = c ^ d * ballVolume d (some 2) r from hs,
      show N * lpsC k q * (c ^ d * ballVolume d (some 2) r) = c ^ d * (N * lpsC k q * ballVolume d (some 2) r) by ring,
      Real.mul_rpow (by positivity) (by positivity)]

theorem lpsLog_scale {k d : Nat} (hd : 0 < d) {N : ℝ} (hN : 0 < N) {c : ℝ} (hc : 0 < c) {L : List ℝ} (hne : L ≠ [])
    (hL : ∀ r ∈ L, 0 < r) : lpsLog N k d (L.map (fun r => c * r)) = d * Real.log c + lpsLog N k d L := by
  have hp : (PNorm.num 2).ok = true := by simp [PNorm.ok]
  have hl : (L.length : ℝ) ≠ 0 := by
    have : 0 < L.length := List.length_pos_of_ne_nil hne
    exact_mod_cast this.ne'
  have e : L.map ((fun ρ => if ρ = 0 then 0 else Real.log (N * Real.exp (- psi k) * ballVolume d (some 2) ρ)) ∘ fun r => c * r) =
      L.map (fun ρ => d * Real.log c + if ρ = 0 then 0 else Real.log (N * Real.exp (- psi k) * ballVolume d (some 2) ρ)) := by
    refine List.map_congr_left fun r hr => ?_
    have h0 := hL r hr
    have hv : 0 < ballVolume d (some 2) r := ballVolume_pos (p := .num 2) hd hp h0
    have hs := ballVolume_scale (p := .num 2) hd hp hc.le h0.le
    simp only [Function.comp]
    rw [if_neg h0.ne', if_neg (mul_pos hc h0).ne', show ballVolume d (some 2) (c * r) = c ^ d * ballVolume d (some 2) r from hs,
      show N * Real.exp (- psi k) * (c ^ d * ballVolume d (some 2) r) = c ^ d * (N * Real.exp (- psi k) * ballVolume d (some 2) r) by ring,
      Real.log_mul (by positivity) (by positivity), Real.log_pow]
  unfold lpsLog
  rw [List.map_map, e]
  unfold mean
  rw [List.sum_map_add]
  simp only [List.length_map, List.map_const', List.sum_replicate, nsmul_eq_mul]
  field_simp

/-- Order `q ≠ 1` (any distances), or order one with positive distances: scaling the distances by `c` adds `d log c`. -/
theorem renyiNN_scale {k d : Nat} (hk : 0 < k) (hd : 0 < d) {q : ℝ} (hq : q < k + 1) {N : ℝ} (hN : 0 < N) {c : ℝ} (hc : 0 < c)
    {L : List ℝ} (hL : ∀ r ∈ L, 0 ≤ r) (hex : ∃ r ∈ L, r ≠ 0) (h1 : q = 1 → ∀ r ∈ L, r ≠ 0) :
    renyiNN N k d q (L.map (fun r => c * r)) = d * Real.log c + renyiNN N k d q L := by
  unfold renyiNN
  by_cases h : q = 1
  · rw [if_pos h, if_pos h]
    refine lpsLog_scale hd hN hc ?_ (fun r hr => lt_of_le_of_ne (hL r hr) (Ne.symm (h1 h r hr)))
    rintro rfl
    obtain ⟨r, hr, _⟩ := hex
    simp at hr
  · have hd' : 1 - q ≠ 0 := fun e => h (by linarith)
    rw [if_neg h, if_neg h, lpsI_scale hk hd hq hN.le hc hL,
      Real.log_mul (Real.rpow_pos_of_pos (by positivity) _).ne' (lpsI_pos hk hq hN hd hL hex).ne', Real.log_rpow (by positivity),
      Real.log_pow]
    field_simp

theorem dists_affine {v : KVar} {n : Nat} (H : v.Sample n) {p : PNorm} (hp : p.ok = true) (c : ℝ) (hc : c ≠ 0) (o : Nat → ℝ) {t s : Nat}
    (ht : t < n) (hs : s < n) : dists p.order (v.affine c o).samples t s = |c| * dists p.order v.samples t s := by
  have hc' : 0 < |c| := abs_pos.2 hc
  have H2 : (v.affine c o).len = n ∧ (v.affine c o).WF := ⟨by rw [affine_len]; exact H.len, affine_wf c o H.wf⟩
  have h1 := dists_eq (p := p) (arr_aligned H.len H.wf) ht hs
  have h2 := dists_eq (p := p) (arr_aligned H2.1 H2.2) ht hs
  have e := fun u hu => affine_samples c o v u (by rw [H.len]; exact hu)
  unfold KVar.samples at e ⊢
  rw [h1, h2, e t ht, e s hs, absDiffs_affine, normOf_smul hp hc'.le (absDiffs_nonneg _ _)]

theorem Sample.affine {v : KVar} {n : Nat} (H : v.Sample n) (c : ℝ) (o : Nat → ℝ) : (v.affine c o).Sample n ∧ (v.affine c o).dim = v.dim := by
  have hdim : (v.affine c o).dim = v.dim := by cases v <;> rfl
  exact ⟨⟨by rw [affine_len]; exact H.len, affine_wf c o H.wf, by rw [hdim]; exact H.dim⟩, hdim⟩

/-- **C64** Scaling the data by `c ≠ 0` and shifting every column: the Rényi entropy grows by `d log|c|`; for order one this needs
distinct samples. -/
theorem C64_renyi_affine (v : KVar) (n : Nat) (H : v.Sample n) (c : ℝ) (hc : c ≠ 0) (o : Nat → ℝ) (k : Nat) (hk : 0 < k) (hkn : k < n)
    (order : PyArg) (q : ℝ) (ho : order.posNumber = some q) (hq : q < k + 1) (b : Base) (hb : b.Valid) (ρ : Nat → ℝ)
    (hρ : ∀ t < n, IsKthDist n k t (dists (some 2) v.samples t) (ρ t)) (hex : ∃ t < n, ρ t ≠ 0) (h1 : q = 1 → ∀ t < n, ρ t ≠ 0) :
    ∃ h, expEntropy renyiVal [.arr v] (.int k) order b = .ok h ∧
      expEntropy renyiVal [.arr (v.affine c o)] (.int k) order b = .ok (h + v.dim * Real.log |c| / b.ln) := by
  have hp : (PNorm.num 2).ok = true := by simp [PNorm.ok]
  have hc' : 0 < |c| := abs_pos.2 hc
  obtain ⟨H', hdim⟩ := Sample.affine H c o
  refine ⟨_, C64_renyi v n H k hk hkn order q ho hq b hb ρ hρ hex, ?_⟩
  obtain ⟨t, ht, h0⟩ := hex
  rw [C64_renyi _ n H' k hk hkn order q ho hq b hb (fun t => |c| * ρ t) (fun t ht =>
    isKthDist_congr (fun s hs => (dists_affine (p := .num 2) H hp c hc o ht hs).symm) (isKthDist_smul hc' (hρ t ht)))
    ⟨t, ht, mul_ne_zero hc'.ne' h0⟩, hdim, ← add_div]
  congr 2
  have := renyiNN_scale hk H.dim hq (pred_pos hk hkn) hc' (rho_nonneg hρ) ⟨ρ t, List.mem_map.2 ⟨t, List.mem_range.2 ht, rfl⟩, h0⟩
    (fun h r hr => by
      obtain ⟨s, hs, rfl⟩ := List.mem_map.1 hr
      exact h1 h s (List.mem_range.1 hs))
  rw [List.map_map] at this
  rw [add_comm]
  exact this

example := C64_renyi_affine (.one [0, 3]) 2 ⟨rfl, KVar.wf_one _, by decide⟩ (-2) (by norm_num) (fun _ => 5) 1 (by decide) (by decide) (.num (3 / 2)) (3 / 2) (by norm_num [PyArg.posNumber]) (by norm_num) .e trivial
  (fun _ => 3) zeroThree_kth ⟨0, by decide, by norm_num⟩ (fun _ _ _ => by norm_num)

/-- … and `1 + (1 − q) T` of the Tsallis entropy is multiplied by `|c|^(d(1−q))`. -/
theorem C64_tsallis_affine (v : KVar) (n : Nat) (H : v.Sample n) (c : ℝ) (hc : c ≠ 0) (o : Nat → ℝ) (k : Nat) (hk : 0 < k) (hkn : k < n)
    (order : PyArg) (q : ℝ) (ho : order.posNumber = some q) (hq1 : q ≠ 1) (hq : q < k + 1) (b : Base) (ρ : Nat → ℝ)
    (hρ : ∀ t < n, IsKthDist n k t (dists (some 2) v.samples t) (ρ t)) (hex : ∃ t < n, ρ t ≠ 0) :
    ∃ T T', expEntropy tsallisVal [.arr v] (.int k) order b = .ok T ∧
      expEntropy tsallisVal [.arr (v.affine c o)] (.int k) order b = .ok T' ∧
      1 + (1 - q) * T' = (|c| ^ v.dim) ^ (1 - q) * (1 + (1 - q) * T) := by
  have hp : (PNorm.num 2).ok = true := by simp [PNorm.ok]
  have hc' : 0 < |c| := abs_pos.2 hc
  obtain ⟨H', hdim⟩ := Sample.affine H c o
  obtain ⟨t, ht, h0⟩ := hex
  refine ⟨_, _, C64_tsallis v n H k hk hkn order q ho hq1 hq b ρ hρ ⟨t, ht, h0⟩, C64_tsallis _ n H' k hk hkn order q ho hq1 hq b
    (fun t => |c| * ρ t) (fun t ht =>
    isKthDist_congr (fun s hs => (dists_affine (p := .num 2) H hp c hc o ht hs).symm) (isKthDist_smul hc' (hρ t ht)))
    ⟨t, ht, mul_ne_zero hc'.ne' h0⟩, ?_⟩
  have := lpsI_scale (q := q) hk H.dim hq (pred_pos hk hkn).le hc' (rho_nonneg hρ)
  rw [List.map_map] at this
  have h2 : q - 1 ≠ 0 := fun e => hq1 (by linarith)
  have e : ∀ x : ℝ, 1 + (1 - q) * ((1 - x) / (q - 1)) = x := fun x => by field_simp; ring
  unfold tsallisNN
  rw [e, e, hdim]
  exact this

example := C64_tsallis_affine (.one [0, 3]) 2 ⟨rfl, KVar.wf_one _, by decide⟩ (-2) (by norm_num) (fun _ => 5) 1 (by decide) (by decide) (.num (3 / 2)) (3 / 2) (by norm_num [PyArg.posNumber]) (by norm_num) (by norm_num) .e
  (fun _ => 3) zeroThree_kth ⟨0, by decide, by norm_num⟩

/-- **C64** The order of the samples does not matter, for any order of the entropy. -/
theorem C64_sample_order (v : KVar) (n : Nat) (H : v.Sample n) (σ : List Nat) (hσ : σ.Perm (List.range n)) (k : Nat) (hk : 0 < k)
    (hkn : k < n) (order : PyArg) (b : Base) (hb : b.Valid) (q : ℝ) (ho : order.posNumber = some q) (hq : q < k + 1) (ρ : Nat → ℝ)
    (hρ : ∀ t < n, IsKthDist n k t (dists (some 2) v.samples t) (ρ t)) (hex : ∃ t < n, ρ t ≠ 0) :
    expEntropy renyiVal [.arr (v.reorder σ)] (.int k) order b = expEntropy renyiVal [.arr v] (.int k) order b ∧
      expEntropy tsallisVal [.arr (v.reorder σ)] (.int k) order b = expEntropy tsallisVal [.arr v] (.int k) order b := by
  have hdim : (v.reorder σ).dim = v.dim := by cases v <;> rfl
  have H' : (v.reorder σ).Sample n := ⟨reorder_len hσ v, reorder_wf hσ H.len H.wf, by rw [hdim]; exact H.dim⟩
  have hf := perm_index hσ
  have hlt : ∀ t < n, σ.getD t 0 < n := fun t ht =>
    List.mem_range.1 (hf.mem_iff.1 (List.mem_map.2 ⟨t, List.mem_range.2 ht, rfl⟩))
  have hρ' : ∀ t < n, IsKthDist n k t (dists (some 2) (v.reorder σ).samples t) (ρ (σ.getD t 0)) := by
    intro t ht
    refine isKthDist_congr (fun s hs => ?_) (isKthDist_relabel hf ht (hρ _ (hlt t ht)))
    unfold dists
    rw [reorder_samples hσ H.len ht, reorder_samples hσ H.len hs]
  have hL : ((List.range n).map (fun t => ρ (σ.getD t 0))).Perm ((List.range n).map ρ) := by
    have := hf.map ρ
    rw [List.map_map] at this
    exact this
  have hex' : ∃ t < n, ρ (σ.getD t 0) ≠ 0 := by
    obtain ⟨t, ht, h0⟩ := hex
    have : ρ t ∈ (List.range n).map (fun t => ρ (σ.getD t 0)) := hL.mem_iff.2 (List.mem_map.2 ⟨t, List.mem_range.2 ht, rfl⟩)
    obtain ⟨s, hs, e⟩ := List.mem_map.1 this
    exact ⟨s, List.mem_range.1 hs, by rw [e]; exact h0⟩
  have hr : expEntropy renyiVal [.arr (v.reorder σ)] (.int k) order b = expEntropy renyiVal [.arr v] (.int k) order b := by
    rw [C64_renyi v n H k hk hkn order q ho hq b hb ρ hρ hex, C64_renyi _ n H' k hk hkn order q ho hq b hb _ hρ' hex', hdim,
      renyiNN_perm hL]
  refine ⟨hr, ?_⟩
  by_cases h1 : q = 1
  · subst h1
    rw [C64_tsallis_one _ _ _ ho, C64_tsallis_one _ _ _ ho, hr]
  · rw [C64_tsallis v n H k hk hkn order q ho h1 hq b ρ hρ hex, C64_tsallis _ n H' k hk hkn order q ho h1 hq b _ hρ' hex', hdim]
    unfold tsallisNN
    rw [lpsI_perm hL]

example := C64_sample_order (.one [0, 3]) 2 ⟨rfl, KVar.wf_one _, by decide⟩ [1, 0] (by decide) 1 (by decide) (by decide) (.num (3 / 2)) .e trivial (3 / 2) (by norm_num [PyArg.posNumber]) (by norm_num)
  (fun _ => 3) zeroThree_kth ⟨0, by decide, by norm_num⟩

theorem sideBySide_ok {vs : List KVar} (hne : vs ≠ []) {n : Nat} (hl : ∀ v ∈ vs, v.len = n) :
    vs.all (fun d => decide (d.len = (vs.headD (.one [])).len)) = true ∧
      stackArrs (vs.map assure2d) = .ok (assure2d (sideBySide n vs)) := by
  constructor
  · rw [List.all_eq_true]
    intro v hv
    cases vs with
    | nil => exact absurd rfl hne
    | cons w ws => simp [hl v hv, hl w (by simp)]
  · rw [stackArrs_ok (n := n) (by simpa using hne) (fun a ha => by
      obtain ⟨v, hv, rfl⟩ := List.mem_map.1 ha
      rw [KVar.len_rows, hl v hv])]
    simp only [sideBySide, assure2d, List.map_map, KVar.dim]
    congr 2
    refine List.map_congr_left fun t _ => ?_
    unfold jrow jointSample KVar.samples
    rw [List.map_map, List.map_map]
    rfl

/-- **C64** Joint entropy of a tuple is the entropy of the side-by-side array. -/
theorem C64_joint (val : Nat → ℝ → KnnParts → ℝ → Base → Except Exc ℝ) (vs : List KVar) (hne : vs ≠ []) (n : Nat)
    (hl : ∀ v ∈ vs, v.len = n) (k order : PyArg) (b : Base) :
    expEntropy val [.tup vs] k order b = expEntropy val [.arr (sideBySide n vs)] k order b := by
  obtain ⟨hall, hs⟩ := sideBySide_ok hne hl
  simp only [expEntropy, expInit, bind, Except.bind, hall, if_true]
  cases order.posNumber with
  | none => rfl
  | some q =>
    simp only
    split_ifs
    · simp only [hs]
    · rfl

example := C64_joint renyiVal [.one [0, 1, 3, 2], .two ⟨2, [[0, 1], [1, 1], [3, 0], [2, 2]]⟩] (by simp) 4 (by simp [KVar.len]) (.int 2) (.num 2) .e

/-- Variables of different lengths are rejected. -/
theorem C64_joint_lengths (val : Nat → ℝ → KnnParts → ℝ → Base → Except Exc ℝ) (vs : List KVar) (v w : KVar) (hv : v ∈ vs) (hw : w ∈ vs)
    (hne : v.len ≠ w.len) (k order : PyArg) (b : Base) : expEntropy val [.tup vs] k order b = .error .valueError := by
  have hall : vs.all (fun d => decide (d.len = (vs.headD (.one [])).len)) = false := by
    rw [Bool.eq_false_iff]
    intro h
    rw [List.all_eq_true] at h
    have h1 := of_decide_eq_true (h v hv)
    have h2 := of_decide_eq_true (h w hw)
    exact hne (h1.trans h2.symm)
  simp only [expEntropy, expInit, bind, Except.bind, hall, Bool.false_eq_true, if_false]

example := C64_joint_lengths renyiVal [.one [0, 1], .one [3]] (.one [0, 1]) (.one [3]) (by simp) (by simp) (by simp [KVar.len])
  (.int 1) (.num 2) .e

/-! ## Cross-entropy -/

theorem knnParts_cross {v w : KVar} {n m : Nat} (H : CrossArgs v w n m) {k : Nat} (hk : 1 < k) (hkm : k ≤ m) {ρ : Nat → ℝ}
    (hρ : ∀ t < n, IsKthSmallest (crossDists (some 2) v w t) k (ρ t)) :
    knnParts (assure2d w) k (some (assure2d v)) =
      .ok ⟨Real.pi ^ ((w.dim : ℝ) / 2) / Real.Gamma ((w.dim : ℝ) / 2 + 1), (List.range n).map ρ, m, w.dim⟩ := by
  have hl := (arr_aligned H.p.len H.p.wf).1
  have hm := (arr_aligned H.q.len H.q.wf).1
  unfold knnParts
  simp only [Option.getD_some]
  rw [if_neg (show ¬ (assure2d v).cols ≠ (assure2d w).cols from fun hc => hc H.dim), if_neg (by omega), if_neg (by omega)]
  congr 1
  simp only [KnnParts.mk.injEq]
  refine ⟨rfl, ?_, hm, rfl⟩
  conv_lhs => arg 2; rw [list_eq_range (assure2d v).rows [] hl]
  rw [List.map_map]
  refine List.map_congr_left fun t ht => ?_
  have ht' := List.mem_range.1 ht
  obtain ⟨e, h1, _, h3⟩ := H.kth (.num 2) (by omega : 0 < k) hkm ht'
  have := isKthSmallest_unique h3 (hρ t ht')
  subst this
  unfold KVar.samples at h1
  simp only [Function.comp, h1, Option.getD_some]

theorem cross_nonneg {v w : KVar} {n k : Nat} {ρ : Nat → ℝ} (hρ : ∀ t < n, IsKthSmallest (crossDists (some 2) v w t) k (ρ t)) :
    ∀ r ∈ (List.range n).map ρ, 0 ≤ r := by
  intro r hr
  obtain ⟨t, ht, rfl⟩ := List.mem_map.1 hr
  obtain ⟨h1, _⟩ := hρ t (List.mem_range.1 ht)
  obtain ⟨y, _, e⟩ := List.mem_map.1 h1
  rw [← e]
  exact distance_nonneg _ _ _

theorem expEntropy_two {val : Nat → ℝ → KnnParts → ℝ → Base → Except Exc ℝ} {v w : KVar} {n m : Nat} (H : CrossArgs v w n m) {k : Nat}
    (hk : 1 < k) (hkm : k ≤ m) {order : PyArg} {q : ℝ} (ho : order.posNumber = some q) (b : Base) {ρ : Nat → ℝ}
    (hρ : ∀ t < n, IsKthSmallest (crossDists (some 2) v w t) k (ρ t)) :
    expEntropy val [.arr v, .arr w] (.int k) order b =
      val k q ⟨Real.pi ^ ((w.dim : ℝ) / 2) / Real.Gamma ((w.dim : ℝ) / 2 + 1), (List.range n).map ρ, m, w.dim⟩ (m : ℝ) b := by
  unfold expEntropy
  rw [expInit_two (by omega) ho]
  simp only [bind, Except.bind]
  rw [knnParts_cross H hk hkm hρ]

/-- **C64** Cross-entropy of `n` samples relative to `m` samples, `2 ≤ k ≤ m`: the same estimate with the distances to the `k`-th
nearest sample of the second data set and `m` in place of `n − 1`. -/
theorem C64_cross (v w : KVar) (n m : Nat) (H : CrossArgs v w n m) (k : Nat) (hk : 1 < k) (hkm : k ≤ m) (order : PyArg) (q : ℝ)
    (ho : order.posNumber = some q) (hq : q < k + 1) (b : Base) (hb : b.Valid) (ρ : Nat → ℝ)
    (hρ : ∀ t < n, IsKthSmallest (crossDists (some 2) v w t) k (ρ t)) (hex : ∃ t < n, ρ t ≠ 0) :
    expEntropy renyiVal [.arr v, .arr w] (.int k) order b = .ok (renyiNN m k w.dim q ((List.range n).map ρ) / b.ln) ∧
      (q ≠ 1 → expEntropy tsallisVal [.arr v, .arr w] (.int k) order b = .ok (tsallisNN m k w.dim q ((List.range n).map ρ))) := by
  obtain ⟨t, ht, h0⟩ := hex
  have hm : (0 : ℝ) < m := by
    have : 0 < m := by omega
    exact_mod_cast this
  have hex : ∃ r ∈ (List.range n).map ρ, r ≠ 0 := ⟨ρ t, List.mem_map.2 ⟨t, List.mem_range.2 ht, rfl⟩, h0⟩
  constructor
  · rw [expEntropy_two H hk hkm ho b hρ]
    exact renyiVal_ok (by omega) hq (cross_nonneg hρ) hex hm H.q.dim hb m
  · intro h1
    rw [expEntropy_two H hk hkm ho b hρ]
    exact tsallisVal_ok (by omega) h1 hq (cross_nonneg hρ) hex hm H.q.dim b m

example := C64_cross (.one [0, 1]) (.one [3, 7]) 2 2 ⟨⟨rfl, KVar.wf_one _, by decide⟩, ⟨rfl, KVar.wf_one _, by decide⟩, rfl⟩ 2 (by decide) (by decide) (.num (3 / 2)) (3 / 2) (by norm_num [PyArg.posNumber]) (by norm_num) .e trivial
  (fun t => 7 - t)
  (fun t ht => by
    interval_cases t <;>
      simp only [IsKthSmallest, crossDists, KVar.samples, assure2d, List.map_cons, List.map_nil, List.getD_cons_zero, List.getD_cons_succ, line_distance] <;>
      norm_num)
  ⟨0, by decide, by norm_num⟩

/-- `k = 1`, a valid choice for the entropy, is an IndexError for the cross-entropy. -/
theorem C64_cross_k_one (val : Nat → ℝ → KnnParts → ℝ → Base → Except Exc ℝ) (v w : KVar) (n m : Nat) (H : CrossArgs v w n m) (hm : 0 < m)
    (order : PyArg) (q : ℝ) (ho : order.posNumber = some q) (b : Base) :
    expEntropy val [.arr v, .arr w] (.int 1) order b = .error .indexError := by
  have := expInit_two (v := v) (w := w) (k := 1) (by omega) ho
  rw [Nat.cast_one] at this
  have hq := (arr_aligned H.q.len H.q.wf).1
  have hk : knnParts (assure2d w) 1 (some (assure2d v)) = .error .indexError := by
    unfold knnParts
    simp only [Option.getD_some]
    rw [if_neg (show ¬ (assure2d v).cols ≠ (assure2d w).cols from fun hc => hc H.dim), if_neg (by omega), if_pos trivial]
  simp only [expEntropy, this, bind, Except.bind, hk]

example := C64_cross_k_one renyiVal (.one [0, 1]) (.one [3, 7]) 2 2 ⟨⟨rfl, KVar.wf_one _, by decide⟩, ⟨rfl, KVar.wf_one _, by decide⟩, rfl⟩ (by decide) (.num 2) 2 (by norm_num [PyArg.posNumber]) .e

/-- Different dimensions, or fewer than `k` samples in the second data set: ValueError. -/
theorem C64_cross_errors (val : Nat → ℝ → KnnParts → ℝ → Base → Except Exc ℝ) (v w : KVar) (k : Nat) (h : v.dim ≠ w.dim ∨ w.len < k)
    (order : PyArg) (b : Base) : expEntropy val [.arr v, .arr w] (.int k) order b = .error .valueError := by
  by_cases hk : 0 < k
  · cases ho : order.posNumber with
    | none => exact C64_parameter_errors val _ _ _ b (.inl ho)
    | some q =>
      have hk' : knnParts (assure2d w) k (some (assure2d v)) = .error .valueError := by
        unfold knnParts
        simp only [Option.getD_some]
        by_cases hd : v.dim ≠ w.dim
        · rw [if_pos (show (assure2d v).cols ≠ (assure2d w).cols from hd)]
        · rw [if_neg (show ¬ (assure2d v).cols ≠ (assure2d w).cols from hd), if_pos (by
            rw [KVar.len_rows]
            rcases h with h | h
            · exact absurd h hd
            · exact h)]
      simp only [expEntropy, expInit_two hk ho, bind, Except.bind, hk']
  · exact C64_parameter_errors val _ _ _ b (.inr (by simp [PyArg.posInt]; omega))

example := C64_cross_errors renyiVal (.one [0, 1]) (.one [3, 7]) 3 (.inr (by decide)) (.num 2) .e

end Verif
