import Verif.Lemmas.Knn2

/-! # Lemmas: Minkowski distances of joint samples -/

namespace Verif

open Spec

/-- absolute coordinate differences -/
def absDiffs (x y : List ℝ) : List ℝ := List.zipWith (fun a b => |a - b|) x y

/-- Minkowski norm of a list of non-negative numbers -/
noncomputable def normOf (p : PNorm) (l : List ℝ) : ℝ :=
  match p with
  | .inf => l.foldr max 0
  | .num q => ((l.map (fun a => a ^ q)).sum) ^ (1 / q)

theorem minkDist_normOf (p : PNorm) (x y : List ℝ) : minkDist p x y = normOf p (absDiffs x y) := by
  match p with
  | .inf => rfl
  | .num q =>
    simp only [minkDist, normOf, absDiffs, List.map_zipWith]

theorem absDiffs_nonneg (x y : List ℝ) : ∀ a ∈ absDiffs x y, 0 ≤ a := zipWith_nonneg (fun _ _ => abs_nonneg _) _ _

theorem normOf_perm (p : PNorm) {l l' : List ℝ} (h : l.Perm l') : normOf p l = normOf p l' := by
  match p with
  | .inf =>
    simp only [normOf]
    exact List.Perm.foldr_eq (lcomm := ⟨fun a b c => max_left_comm a b c⟩) h 0
  | .num q => simp only [normOf]; rw [(h.map _).sum_eq]

theorem normOf_smul {p : PNorm} (hp : p.ok = true) {c : ℝ} (hc : 0 ≤ c) {l : List ℝ} (hl : ∀ a ∈ l, 0 ≤ a) :
    normOf p (l.map (fun a => c * a)) = c * normOf p l := by
  match p with
  | .inf =>
    simp only [normOf]
    induction l with
    | nil => simp
    | cons a l ih =>
      simp only [List.map_cons, List.foldr_cons]
      rw [ih (fun b hb => hl b (by simp [hb])), mul_max_of_nonneg _ _ hc]
  | .num q =>
    have h1 : 1 ≤ q := by simpa [PNorm.ok] using hp
    simp only [normOf]
    have e : (l.map (fun a => c * a)).map (fun a => a ^ q) = l.map (fun a => c ^ q * a ^ q) := by
      rw [List.map_map]
      exact List.map_congr_left fun a ha => Real.mul_rpow hc (hl a ha)
    rw [e, List.sum_map_mul_left, Real.mul_rpow (Real.rpow_nonneg hc _) (List.sum_nonneg (by
      intro x hx; obtain ⟨a, ha, rfl⟩ := List.mem_map.1 hx; exact Real.rpow_nonneg (hl a ha) _)),
      ← Real.rpow_mul hc, mul_one_div_cancel (by linarith), Real.rpow_one]

theorem normOf_one {p : PNorm} (hp : p.ok = true) {a : ℝ} (ha : 0 ≤ a) : normOf p [a] = a := by
  match p with
  | .inf => simp [normOf, ha]
  | .num q =>
    have h1 : 1 ≤ q := by simpa [PNorm.ok] using hp
    simp only [normOf, List.map_cons, List.map_nil, List.sum_cons, List.sum_nil, add_zero]
    rw [← Real.rpow_mul ha, mul_one_div_cancel (by linarith), Real.rpow_one]

theorem normOf_append_zero (p : PNorm) (hp : p.ok = true) (l : List ℝ) {z : List ℝ} (hl : ∀ a ∈ l, 0 ≤ a) (hz : ∀ a ∈ z, a = 0) : normOf p (l ++ z) = normOf p l := by
  match p with
  | .inf =>
    simp only [normOf]
    rw [foldr_max_append _ _ hl (fun a ha => (hz a ha).ge)]
    have h0 : z.foldr max 0 = 0 := by
      induction z with
      | nil => rfl
      | cons a z ih => rw [List.foldr_cons, ih (fun b hb => hz b (by simp [hb])), hz a (by simp), max_self]
    have h1 : 0 ≤ l.foldr max 0 := by
      cases l with
      | nil => simp
      | cons a l => exact le_trans (hl a (by simp)) (le_max_left _ _)
    rw [h0, max_eq_left h1]
  | .num q =>
    have h1 : 1 ≤ q := by simpa [PNorm.ok] using hp
    simp only [normOf, List.map_append, List.sum_append]
    have h0 : (z.map (fun a => a ^ q)).sum = 0 := List.sum_eq_zero (by
      intro x hx; obtain ⟨a, ha, rfl⟩ := List.mem_map.1 hx; rw [hz a ha]; exact Real.zero_rpow (by linarith))
    rw [h0, add_zero]

theorem absDiffs_append {x x' y y' : List ℝ} (h : x.length = y.length) :
    absDiffs (x ++ x') (y ++ y') = absDiffs x y ++ absDiffs x' y' := List.zipWith_append h

theorem absDiffs_jrow {n : Nat} {as : List Arr} (ha : Aligned n as) {t s : Nat} (ht : t < n) (hs : s < n) :
    absDiffs (jrow as t) (jrow as s) = (as.map (fun a => absDiffs (a.rows.getD t []) (a.rows.getD s []))).flatten := by
  induction as with
  | nil => rfl
  | cons a as ih =>
    have ha' : Aligned n as := fun b hb => ha b (by simp [hb])
    have e : ∀ t, jrow (a :: as) t = a.rows.getD t [] ++ jrow as t := fun t => by simp [jrow]
    rw [e, e, absDiffs_append, ih ha', List.map_cons, List.flatten_cons]
    rw [getD_length (ha a (by simp)) ht, getD_length (ha a (by simp)) hs]

theorem jointDists_eq {p : PNorm} {n : Nat} {as : List Arr} (ha : Aligned n as) {t s : Nat} (ht : t < n) (hs : s < n) :
    jointDists p.order (as.map Arr.rows) t s =
      normOf p ((as.map (fun a => absDiffs (a.rows.getD t []) (a.rows.getD s []))).flatten) := by
  unfold jointDists
  rw [← jrow_eq, ← jrow_eq, ← minkDist_eq (by rw [jrow_length ha ht, jrow_length ha hs]), minkDist_normOf, absDiffs_jrow ha ht hs]

theorem dists_eq {p : PNorm} {n : Nat} {a : Arr} (ha : a.rows.length = n ∧ Points a.rows a.cols) {t s : Nat} (ht : t < n)
    (hs : s < n) : dists p.order a.rows t s = normOf p (absDiffs (a.rows.getD t []) (a.rows.getD s [])) := by
  rw [← minkDist_rows ha.1 ha.2 ht hs, minkDist_normOf]

/-- the order of the variables does not matter for the joint distance -/
theorem jointDists_perm {p : PNorm} {n : Nat} {as bs : List Arr} (ha : Aligned n as) (hab : as.Perm bs) {t s : Nat} (ht : t < n)
    (hs : s < n) : jointDists p.order (as.map Arr.rows) t s = jointDists p.order (bs.map Arr.rows) t s := by
  have hb : Aligned n bs := fun b hb => ha b (hab.mem_iff.2 hb)
  rw [jointDists_eq ha ht hs, jointDists_eq hb ht hs]
  exact normOf_perm p ((hab.map _).flatten)

theorem normOf_le_append {p : PNorm} (hp : p.ok = true) (l l' : List ℝ) (hl : ∀ a ∈ l, 0 ≤ a) (hl' : ∀ a ∈ l', 0 ≤ a) :
    normOf p l ≤ normOf p (l ++ l') ∧ normOf p l' ≤ normOf p (l ++ l') := by
  match p with
  | .inf =>
    simp only [normOf]
    rw [foldr_max_append _ _ hl hl']
    exact ⟨le_max_left _ _, le_max_right _ _⟩
  | .num q =>
    have h1 : 1 ≤ q := by simpa [PNorm.ok] using hp
    have hn : ∀ l : List ℝ, (∀ a ∈ l, 0 ≤ a) → 0 ≤ (l.map (fun a => a ^ q)).sum := fun l hl => List.sum_nonneg (by
      intro x hx; obtain ⟨a, ha, rfl⟩ := List.mem_map.1 hx; exact Real.rpow_nonneg (hl a ha) _)
    have ha := hn l hl
    have hb := hn l' hl'
    simp only [normOf, List.map_append, List.sum_append]
    exact ⟨Real.rpow_le_rpow ha (by linarith) (by positivity), Real.rpow_le_rpow hb (by linarith) (by positivity)⟩

/-- the distance in one variable is at most the joint distance -/
theorem dists_le_joint {p : PNorm} (hp : p.ok = true) {n : Nat} {as : List Arr} (ha : Aligned n as) {a : Arr} (hm : a ∈ as)
    {t s : Nat} (ht : t < n) (hs : s < n) : dists p.order a.rows t s ≤ jointDists p.order (as.map Arr.rows) t s := by
  rw [jointDists_eq ha ht hs, dists_eq (ha a hm) ht hs]
  obtain ⟨l1, l2, rfl⟩ := List.append_of_mem hm
  have hf : ∀ l : List Arr, ∀ x ∈ (l.map (fun a => absDiffs (a.rows.getD t []) (a.rows.getD s []))).flatten, 0 ≤ x := by
    intro l x hx
    rw [List.mem_flatten] at hx
    obtain ⟨L, hL, hx⟩ := hx
    obtain ⟨b, _, rfl⟩ := List.mem_map.1 hL
    exact absDiffs_nonneg _ _ x hx
  have h0 := absDiffs_nonneg (a.rows.getD t []) (a.rows.getD s [])
  rw [List.map_append, List.flatten_append, List.map_cons, List.flatten_cons]
  refine le_trans (normOf_le_append hp _ _ h0 (hf l2)).1 (normOf_le_append hp _ _ (hf l1) ?_).2
  intro x hx
  rcases List.mem_append.1 hx with h | h
  · exact h0 x h
  · exact hf l2 x h

theorem psi_mono {m n : Nat} (h : m ≤ n) : psi m ≤ psi n := by
  unfold psi
  have := Finset.sum_le_sum_of_subset_of_nonneg (f := fun k : Nat => 1 / ((k : ℝ) + 1))
    (Finset.range_subset_range.2 (Nat.sub_le_sub_right h 1)) (fun i _ _ => by positivity)
  linarith

theorem psi_succ {n : Nat} (hn : 0 < n) : psi (n + 1) = psi n + 1 / n := by
  obtain ⟨m, rfl⟩ : ∃ m, n = m + 1 := ⟨n - 1, by omega⟩
  unfold psi
  rw [Nat.add_sub_cancel, Nat.add_sub_cancel, Finset.sum_range_succ]
  push_cast
  ring

theorem psi_lt {m n : Nat} (hm : 0 < m) (h : m < n) : psi m < psi n := by
  have h1 := psi_mono (Nat.succ_le_of_lt h)
  rw [Nat.succ_eq_add_one, psi_succ hm] at h1
  have : (0 : ℝ) < 1 / m := by positivity
  linarith

theorem ksgCount_lt {id : Int} {n t : Nat} (ht : t < n) (δ : Nat → ℝ) (ε : ℝ) : ksgCount id n t δ ε + 1 ≤ n := by
  have h1 := within_lt ht δ ε
  have h2 := below_le_within n t δ ε
  unfold ksgCount
  split_ifs <;> omega

theorem ksgCount_congr {id : Int} {n t : Nat} {δ δ' : Nat → ℝ} (h : ∀ s < n, δ s = δ' s) (ε : ℝ) :
    ksgCount id n t δ ε = ksgCount id n t δ' ε := by
  unfold ksgCount
  rw [below_congr h, within_congr h]

theorem below_smul {n t : Nat} {δ : Nat → ℝ} {c ε : ℝ} (hc : 0 < c) : below n t (fun s => c * δ s) (c * ε) = below n t δ ε := by
  unfold below
  congr 1
  refine List.filter_congr fun s _ => ?_
  rw [decide_eq_decide, mul_lt_mul_iff_right₀ hc]

theorem within_smul {n t : Nat} {δ : Nat → ℝ} {c ε : ℝ} (hc : 0 < c) : within n t (fun s => c * δ s) (c * ε) = within n t δ ε := by
  unfold within
  congr 1
  refine List.filter_congr fun s _ => ?_
  rw [decide_eq_decide, mul_le_mul_iff_right₀ hc]

theorem isKthDist_smul {n k t : Nat} {δ : Nat → ℝ} {c ε : ℝ} (hc : 0 < c) (h : IsKthDist n k t δ ε) :
    IsKthDist n k t (fun s => c * δ s) (c * ε) := by
  obtain ⟨⟨s, hs, hst, e⟩, h1, h2⟩ := h
  exact ⟨⟨s, hs, hst, by simp only [e]⟩, by rwa [below_smul hc], by rwa [within_smul hc]⟩

/-- relabelling of samples -/
theorem count_relabel {n : Nat} {f : Nat → Nat} (hf : ((List.range n).map f).Perm (List.range n)) (t : Nat) (ht : t < n)
    (P : Nat → Prop) [DecidablePred P] :
    ((List.range n).filter (fun s => decide (s ≠ t ∧ P (f s)))).length =
      ((List.range n).filter (fun s => decide (s ≠ f t ∧ P s))).length := by
  have hnd : ((List.range n).map f).Nodup := hf.nodup_iff.2 List.nodup_range
  have hinj := List.inj_on_of_nodup_map hnd
  rw [← List.countP_eq_length_filter, ← List.countP_eq_length_filter]
  rw [← hf.countP_eq (fun s => decide (s ≠ f t ∧ P s)), List.countP_map]
  refine List.countP_congr fun s hs => ?_
  simp only [Function.comp, decide_eq_true_eq, ne_eq]
  constructor
  · rintro ⟨h1, h2⟩
    exact ⟨fun h => h1 (hinj hs (List.mem_range.2 ht) h), h2⟩
  · rintro ⟨h1, h2⟩
    exact ⟨fun h => h1 (by rw [h]), h2⟩

theorem below_relabel {n : Nat} {f : Nat → Nat} (hf : ((List.range n).map f).Perm (List.range n)) {t : Nat} (ht : t < n)
    (δ : Nat → ℝ) (ε : ℝ) : below n t (fun s => δ (f s)) ε = below n (f t) δ ε := by
  unfold below
  classical
  convert count_relabel hf t ht (fun s => δ s < ε)

theorem within_relabel {n : Nat} {f : Nat → Nat} (hf : ((List.range n).map f).Perm (List.range n)) {t : Nat} (ht : t < n)
    (δ : Nat → ℝ) (ε : ℝ) : within n t (fun s => δ (f s)) ε = within n (f t) δ ε := by
  unfold within
  classical
  convert count_relabel hf t ht (fun s => δ s ≤ ε)

theorem isKthDist_relabel {n k : Nat} {f : Nat → Nat} (hf : ((List.range n).map f).Perm (List.range n)) {t : Nat} (ht : t < n)
    {δ : Nat → ℝ} {ε : ℝ} (h : IsKthDist n k (f t) δ ε) : IsKthDist n k t (fun s => δ (f s)) ε := by
  obtain ⟨⟨s, hs, hst, e⟩, h1, h2⟩ := h
  refine ⟨?_, by rwa [below_relabel hf ht], by rwa [within_relabel hf ht]⟩
  have : s ∈ (List.range n).map f := hf.mem_iff.2 (List.mem_range.2 hs)
  obtain ⟨u, hu, rfl⟩ := List.mem_map.1 this
  exact ⟨u, List.mem_range.1 hu, fun h => hst (by rw [h]), e⟩

end Verif
